import Verif.EndToEnd.SensedDot

/-! # Runs of an autotuner whose first tuner is the tuner of the sensing dot -/

namespace Qtune.EndToEnd

open Qtune.Tuner Qtune.Gradient Qtune.Autotuner

variable {n m K : Nat} {X : Type}

/-- The hierarchy of a sensor. -/
noncomputable abbrev Sensor.hierarchy (D : Sensor n) (I : Newton.EstI X (Fin n)) (lstsq : Newton.Lstsq (Fin n)) (K : Nat)
    (outs : Nat → Volt (Fin n) → List Outcome) :=
  sensedHierarchy D.gateName D.cheapOuts D.expensiveOuts I lstsq K outs

/-- `q'` differs from `q` at the gates of the sensing dot only. -/
def Sensor.Same (D : Sensor n) (q q' : Vec n) : Prop := ∀ j, j ∉ D.gates → q' j = q j

theorem Sensor.Same.trans {D : Sensor n} {a b c : Vec n} (h : D.Same a b) (h' : D.Same b c) : D.Same a c :=
  fun j hj => (h' j hj).trans (h j hj)

theorem Sensor.Same.symm {D : Sensor n} {a b : Vec n} (h : D.Same a b) : D.Same b a := fun j hj => (h j hj).symm

theorem Sensor.Same.scaled {D : Sensor n} {P : Plan n m K} (hs : D.Separate P) {q q' : Vec n} (h : D.Same q q')
    (k : Fin m) : P.scaled k q' = P.scaled k q := by
  unfold Plan.scaled Plan.response
  congr 2
  refine Finset.sum_congr rfl fun j _ => ?_
  by_cases hj : j ∈ D.gates
  · rw [hs.unaffected k j hj, zero_mul, zero_mul]
  · rw [h j hj]

theorem Sensor.Same.met {D : Sensor n} {P : Plan n m K} (hs : D.Separate P) {q q' : Vec n} (h : D.Same q q')
    {i : Nat} (hm : P.Met i q) : P.Met i q' := by
  intro k tol ho ht
  have := hm k tol ho ht
  have e : P.response k q' / P.scale k = P.response k q / P.scale k := h.scaled hs k
  rw [e]
  exact this

theorem Sensor.Same.reaches {D : Sensor n} {P : Plan n m K} (hs : D.Separate P) {q q' : Vec n} (h : D.Same q q')
    {i : Nat} {x : Vec n} (hr : P.Reaches i q x) : P.Reaches i q' x :=
  ⟨hr.outside, fun k ho => by rw [h.scaled hs k]; exact hr.own k ho, hr.other⟩

theorem read_volts (q : Vec n) : (fun j => (some (volts q j) : Option Val).join) = volts q := rfl

/-- The sensing dot is made sensitive. -/
theorem Sensor.settle {D : Sensor n} (hD : D.Valid) {I : Newton.EstI X (Fin n)} {lstsq : Newton.Lstsq (Fin n)}
    {outs : Nat → Volt (Fin n) → List Outcome} {r : Nat} {q : Vec n} (hr : D.Settles r q) :
    ∀ w : Sensed X n, D.Tuner w.dot → ∃ M ≤ 3 * r + 1, ∃ w' q',
      iterates (D.hierarchy I lstsq K outs) M ⟨w, volts q, 0, false, none⟩ =
        .ok ⟨w', volts q', 1, false, none⟩ ∧ w'.rest = w.rest ∧ D.Tuner w'.dot ∧ D.Sensitive q' ∧ D.Same q q' := by
  have hpass : ∀ q, D.Sensitive q → ∀ w : Sensed X n, D.Tuner w.dot → ∃ w',
      iterates (D.hierarchy I lstsq K outs) 1 ⟨w, volts q, 0, false, none⟩ =
        .ok ⟨w', volts q, 1, false, none⟩ ∧ w'.rest = w.rest ∧ D.Tuner w'.dot := by
    intro q hq w hw
    obtain ⟨t', h1, h2, h3⟩ := D.tuned hD hw hq
    refine ⟨⟨t', w.rest⟩, ?_, rfl, h3⟩
    apply iterates_one
    · simp [iterate, Sensor.hierarchy, sensedHierarchy, isComplete, finish, h1, h2]
    · simp [iterate, Sensor.hierarchy, sensedHierarchy, isComplete, finish, h1, h2]
  induction hr with
  | sensitive hq =>
    intro w hw
    obtain ⟨w', h1, h2, h3⟩ := hpass _ hq w hw
    exact ⟨1, by omega, w', _, h1, h2, h3, hq, fun _ _ => rfl⟩
  | @adjust r q hq ih =>
    intro w hw
    by_cases hsen : D.Sensitive q
    · obtain ⟨w', h1, h2, h3⟩ := hpass _ hsen w hw
      exact ⟨1, by omega, w', _, h1, h2, h3, hsen, fun _ _ => rfl⟩
    · obtain ⟨t', h1, h2, h3, q', hadj, hsame, hnext⟩ := D.adjusted hD hw hsen
      have c1 : iterates (D.hierarchy I lstsq K outs) 1 ⟨w, volts q, 0, false, none⟩ =
          .ok ⟨⟨t', w.rest⟩, volts q, 0, true, none⟩ := by
        apply iterates_one
        · simp [iterate, Sensor.hierarchy, sensedHierarchy, isComplete, finish, h1, h2]
        · simp [iterate, Sensor.hierarchy, sensedHierarchy, isComplete, finish, h1, h2]
      have c2 : iterates (D.hierarchy I lstsq K outs) 1 ⟨⟨t', w.rest⟩, volts q, 0, true, none⟩ =
          .ok ⟨⟨t', w.rest⟩, volts q, 0, false, some fun j => if j ∈ D.gates then some (some (q' j)) else none⟩ := by
        apply iterates_one
        · simp [iterate, Sensor.hierarchy, sensedHierarchy, isComplete, finish, hnext]
        · simp [iterate, Sensor.hierarchy, sensedHierarchy, isComplete, finish, hnext]
      have hover : overlay (volts q) (fun j => if j ∈ D.gates then some (some (q' j)) else none) = volts q' := by
        funext j
        unfold overlay
        by_cases hj : j ∈ D.gates
        · simp [hj, volts]
        · simp [hj, volts, hsame j hj]
      have hnan : ¬ ∃ j, (if j ∈ D.gates then some (some (q' j)) else none : Option Val) = some none := by
        rintro ⟨j, hj⟩
        split_ifs at hj
        simp at hj
      have c3 : iterates (D.hierarchy I lstsq K outs) 1 ⟨⟨t', w.rest⟩, volts q, 0, false,
            some fun j => if j ∈ D.gates then some (some (q' j)) else none⟩ =
          .ok ⟨⟨t', w.rest⟩, volts q', 0, false, none⟩ := by
        apply iterates_one
        · simp only [iterate, Sensor.hierarchy, sensedHierarchy, isComplete, finish, hover, hnan]
          simp
        · simp only [iterate, Sensor.hierarchy, sensedHierarchy, isComplete, finish, hover, hnan]
          simp
      obtain ⟨M, hM, w', q'', hit, hrest, hdot, hs, hsm⟩ := ih q' hadj ⟨t', w.rest⟩ h3
      refine ⟨1 + (1 + (1 + M)), by omega, w', q'', ?_, hrest, hdot, hs, Sensor.Same.trans hsame hsm⟩
      rw [iterates_add _ 1 _ _ _ c1, iterates_add _ 1 _ _ _ c2, iterates_add _ 1 _ _ _ c3]
      exact hit

/-- One evaluation. -/
theorem Sensor.evaluation_call {D : Sensor n} {I : Newton.EstI X (Fin n)} {lstsq : Newton.Lstsq (Fin n)} {j : Nat}
    {outs : Nat → Volt (Fin n) → List Outcome}
    (hj : j < K) {w : Sensed X n} {q : Vec n} {t' : OneTuner X n} {b : Bool}
    (h : isTuned (Newton.solver I lstsq) (outs j (volts q)) (volts q) (w.rest.get j) = (t', .ok b)) :
    iterates (D.hierarchy I lstsq K outs) 1 ⟨w, volts q, j + 1, false, none⟩ =
      .ok ⟨⟨w.dot, w.rest.put j t'⟩, volts q, if b then j + 2 else j + 1, !b, none⟩ := by
  apply iterates_one
  · cases b <;> simp [iterate, Sensor.hierarchy, sensedHierarchy, isComplete, finish, h, hj.ne, Nat.not_le.2 hj]
  · cases b <;> simp [iterate, Sensor.hierarchy, sensedHierarchy, isComplete, finish, h, hj.ne, Nat.not_le.2 hj]

/-- The suggestion and the setting of the voltages. -/
theorem Sensor.suggestion_calls {D : Sensor n} {I : Newton.EstI X (Fin n)} {lstsq : Newton.Lstsq (Fin n)} {i : Nat}
    {outs : Nat → Volt (Fin n) → List Outcome}
    (hi : i < K) {w : Sensed X n} {q q' : Vec n} {t' : OneTuner X n}
    (h : ∀ tuned, nextVoltages (Newton.solver I lstsq) tuned (w.rest.get i) = (t', .ok (volts q'))) :
    iterates (D.hierarchy I lstsq K outs) 2 ⟨w, volts q, i + 1, true, none⟩ =
      .ok ⟨⟨w.dot, w.rest.put i t'⟩, volts q', 0, false, none⟩ := by
  have h1 : iterates (D.hierarchy I lstsq K outs) 1 ⟨w, volts q, i + 1, true, none⟩ =
      .ok ⟨⟨w.dot, w.rest.put i t'⟩, volts q, i + 1, false, some fun j => some (volts q' j)⟩ := by
    apply iterates_one
    · simp [iterate, Sensor.hierarchy, sensedHierarchy, isComplete, finish, h, hi.ne, Nat.not_le.2 hi, Except.map]
    · simp [iterate, Sensor.hierarchy, sensedHierarchy, isComplete, finish, h, hi.ne, Nat.not_le.2 hi, Except.map]
  have hover : overlay (volts q) (fun j => some (volts q' j)) = volts q' := rfl
  rw [iterates_add _ 1 1 _ _ h1]
  apply iterates_one
  · simp [iterate, Sensor.hierarchy, sensedHierarchy, isComplete, finish, hi.ne, volts]
    exact hover
  · simp [iterate, Sensor.hierarchy, sensedHierarchy, isComplete, finish, hi.ne, volts]

/-- What stays the same during a run. -/
structure Sensor.Context (D : Sensor n) (P : Plan n m K) (outs : Nat → Volt (Fin n) → List Outcome) (R : Nat) : Prop where
  plan : P.Valid
  sensor : D.Valid
  separate : D.Separate P
  outs : ∀ i < K, ∀ q, D.Sensitive q → outs i (volts q) = P.outs i (volts q)
  settles : ∀ q, D.Settles R q

/-- The tuners below `i` are evaluated again and are still tuned. -/
theorem Sensor.climb {D : Sensor n} {P : Plan n m K} {outs : Nat → Volt (Fin n) → List Outcome} {R : Nat}
    (hC : D.Context P outs R) {I : Newton.EstI X (Fin n)} {lstsq : Newton.Lstsq (Fin n)}
    {G A : Fin m → X → Prop} (hI : ∀ k, Knows P I k (G k) (A k)) {lim : Nat → Val × Int} {i : Nat} (hi : i ≤ K)
    {w : Sensed X n} {E : Fin m → X} (hw : P.World G lim i w.rest E) {q : Vec n} (hq : D.Sensitive q)
    (hmet : ∀ j < i, P.Met j q) :
    ∀ j ≤ i, ∃ w' E', iterates (D.hierarchy I lstsq K outs) j ⟨w, volts q, 1, false, none⟩ =
        .ok ⟨w', volts q, j + 1, false, none⟩ ∧ P.World G lim i w'.rest E' ∧ w'.rest.tuners i = w.rest.tuners i ∧
      w'.dot = w.dot ∧ ∀ k, P.owner k = i → E' k = E k := by
  intro j
  induction j with
  | zero => exact fun _ => ⟨w, E, rfl, hw, rfl, rfl, fun _ _ => rfl⟩
  | succ j ih =>
    intro hj
    obtain ⟨w₁, E₁, hit, hw₁, hsame, hdot, hown⟩ := ih (by omega)
    have hidle := hw₁.idle j (by omega) (by omega)
    obtain ⟨E', t', b, hev, hA, hother, hests, hAt, hm1, hm2, hb⟩ := P.evaluation hC.plan hI (lstsq := lstsq)
      (i := j) (by omega) hw₁.know (get_tuner hidle.1) hw₁.ests q
    have hb' : b = true := hb.2 (hmet j (by omega))
    subst hb'
    rw [← hC.outs j (by omega) q hq] at hev
    refine ⟨⟨w₁.dot, w₁.rest.put j t'⟩, E', ?_, ⟨hests, fun k => ?_, fun l hl hli => ?_⟩, ?_, hdot, fun k ho => ?_⟩
    · rw [iterates_add _ j 1 _ _ hit]
      exact Sensor.evaluation_call (by omega) hev
    · by_cases ho : P.owner k = j
      · exact (hI k).weaken _ (hA k ho)
      · rw [hother k ho]; exact hw₁.know k
    · by_cases hlj : l = j
      · subst hlj
        simp only [Shared.put, Function.update_self]
        exact ⟨⟨hAt.target, hAt.gates, hAt.index, hAt.lastIndex, hAt.queued⟩, hm1.trans hidle.2.1,
          hm2.trans hidle.2.2⟩
      · simp only [Shared.put, Function.update_of_ne hlj]
        exact hw₁.idle l hl hli
    · simp only [Shared.put]
      rw [Function.update_of_ne (by omega)]
      exact hsame
    · rw [hother k (by omega), hown k ho]

/-- Suggestion, setting of the voltages, evaluation of the sensing dot and of the tuners below. -/
theorem Sensor.round {D : Sensor n} {P : Plan n m K} {outs : Nat → Volt (Fin n) → List Outcome} {R : Nat}
    (hC : D.Context P outs R) {I : Newton.EstI X (Fin n)} {lstsq : Newton.Lstsq (Fin n)}
    {G A : Fin m → X → Prop} (hI : ∀ k, Knows P I k (G k) (A k)) {lim : Nat → Val × Int} {i : Nat} (hi : i < K)
    {w : Sensed X n} {E : Fin m → X} (hw : P.World G lim i w.rest E) (hdot : D.Tuner w.dot) {q q' : Vec n}
    (hmet : ∀ j < i, P.Met j q') {t' : OneTuner X n} (ht' : t'.solver.ests = List.ofFn E)
    (h : ∀ tuned, nextVoltages (Newton.solver I lstsq) tuned (w.rest.get i) = (t', .ok (volts q'))) :
    ∃ M ≤ 3 + 3 * R + i, ∃ w' E' q'', iterates (D.hierarchy I lstsq K outs) M ⟨w, volts q, i + 1, true, none⟩ =
        .ok ⟨w', volts q'', i + 1, false, none⟩ ∧ P.World G lim i w'.rest E' ∧ D.Tuner w'.dot ∧
      w'.rest.tuners i = t' ∧ (∀ k, P.owner k = i → E' k = E k) ∧ D.Sensitive q'' ∧ D.Same q' q'' := by
  have hw' : P.World G lim i (w.rest.put i t') E := by
    refine ⟨ht', hw.know, fun j hj hji => ?_⟩
    simp only [Shared.put, Function.update_of_ne hji]
    exact hw.idle j hj hji
  obtain ⟨M, hM, w₁, q₁, hit₁, hrest, hdot₁, hsen, hsame⟩ := Sensor.settle (K := K) hC.sensor (I := I) (lstsq := lstsq)
    (outs := outs) (hC.settles q') ⟨w.dot, w.rest.put i t'⟩ hdot
  have hw₁ : P.World G lim i w₁.rest E := by rw [hrest]; exact hw'
  obtain ⟨w₂, E₂, hit₂, hw₂, hsame₂, hdot₂, hown⟩ := Sensor.climb hC hI (lstsq := lstsq) hi.le hw₁ hsen
    (fun j hj => hsame.met hC.separate (hmet j hj)) i (le_refl _)
  refine ⟨2 + (M + i), by omega, w₂, E₂, q₁, ?_, hw₂, hdot₂ ▸ hdot₁, ?_, hown, hsen, hsame⟩
  · rw [iterates_add _ 2 _ _ _ (Sensor.suggestion_calls hi h), iterates_add _ M _ _ _ hit₁]
    exact hit₂
  · rw [hsame₂, hrest]
    simp [Shared.put]

/-- The tuners below `i` are tuned at `q`, everything is idle, the sensing dot is sensitive. -/
structure Sensor.Passed (D : Sensor n) (P : Plan n m K) (G : Fin m → X → Prop) (lim : Nat → Val × Int) (i : Nat)
    (q : Vec n) (w : Sensed X n) : Prop where
  rest : P.Passed G lim i q w.rest
  dot : D.Tuner w.dot
  sensitive : D.Sensitive q

/-- The situation after an evaluation of tuner `i` at `q`. -/
structure Sensor.Working (D : Sensor n) (P : Plan n m K) (G A : Fin m → X → Prop) (lim : Nat → Val × Int) (i : Nat)
    (q : Vec n) (w : Sensed X n) (E : Fin m → X) : Prop where
  rest : P.Working G A lim i q w.rest E
  dot : D.Tuner w.dot
  sensitive : D.Sensitive q

/-- The evaluation of tuner `i`. -/
theorem Sensor.evaluate_tuner {D : Sensor n} {P : Plan n m K} {outs : Nat → Volt (Fin n) → List Outcome}
    (hP : P.Valid) (houts : ∀ i < K, ∀ q, D.Sensitive q → outs i (volts q) = P.outs i (volts q)) {I : Newton.EstI X (Fin n)} {lstsq : Newton.Lstsq (Fin n)}
    {G A : Fin m → X → Prop} (hI : ∀ k, Knows P I k (G k) (A k)) {lim : Nat → Val × Int} {i : Nat} (hi : i < K)
    {w : Sensed X n} {E : Fin m → X} (hw : P.World G lim i w.rest E) (hidle : P.Idle lim i (w.rest.tuners i))
    (hdot : D.Tuner w.dot) {q : Vec n} (hq : D.Sensitive q) (hmet : ∀ j < i, P.Met j q) :
    ∃ w' E', D.Working P G A lim i q w' E' ∧
      ((P.Met i q ∧ iterates (D.hierarchy I lstsq K outs) 1 ⟨w, volts q, i + 1, false, none⟩ =
        .ok ⟨w', volts q, i + 2, false, none⟩) ∨
      (¬ P.Met i q ∧ iterates (D.hierarchy I lstsq K outs) 1 ⟨w, volts q, i + 1, false, none⟩ =
        .ok ⟨w', volts q, i + 1, true, none⟩)) := by
  obtain ⟨E', t', b, hev, hA, hother, hests, hAt, hm1, hm2, hb⟩ := P.evaluation hP hI (lstsq := lstsq)
    hi hw.know (get_tuner hidle.1) hw.ests q
  rw [← houts i hi q hq] at hev
  have hcall := Sensor.evaluation_call (D := D) hi hev
  refine ⟨⟨w.dot, w.rest.put i t'⟩, E', ⟨⟨⟨hests, fun k => ?_, fun l hl hli => ?_⟩, hA, ?_, ?_, hmet⟩, hdot, hq⟩, ?_⟩
  · by_cases ho : P.owner k = i
    · exact (hI k).weaken _ (hA k ho)
    · rw [hother k ho]; exact hw.know k
  · simp only [Shared.put, Function.update_of_ne hli]
    exact hw.idle l hl hli
  · simp only [Shared.put, Function.update_self]
    exact hAt
  · simp only [Shared.put, Function.update_self]
    exact ⟨hm1.trans hidle.2.1, hm2.trans hidle.2.2⟩
  · cases b with
    | true => exact .inl ⟨hb.1 rfl, hcall⟩
    | false => exact .inr ⟨fun h => by (have := hb.2 h; cases this), hcall⟩

/-- Calls until tuner `i` is passed. -/
def Sensor.PassesWithin (D : Sensor n) (P : Plan n m K) (outs : Nat → Volt (Fin n) → List Outcome)
    (I : Newton.EstI X (Fin n)) (lstsq : Newton.Lstsq (Fin n))
    (G : Fin m → X → Prop) (lim : Nat → Val × Int) (i N : Nat)
    (s : Autotuner.State (Sensed X n) (Volt (Fin n)) (Fin n → Option Val)) : Prop :=
  ∃ M ≤ N, ∃ w' q', iterates (D.hierarchy I lstsq K outs) M s = .ok ⟨w', volts q', i + 2, false, none⟩ ∧
    D.Passed P G lim (i + 1) q' w'

/-- A step that is short enough. -/
theorem Sensor.short_phase {D : Sensor n} {P : Plan n m K} {outs : Nat → Volt (Fin n) → List Outcome} {R : Nat}
    (hC : D.Context P outs R) {I : Newton.EstI X (Fin n)} {lstsq : Newton.Lstsq (Fin n)}
    {G A : Fin m → X → Prop} (hI : ∀ k, Knows P I k (G k) (A k)) {lim : Nat → Val × Int} {i : Nat} (hi : i < K)
    {w : Sensed X n} {E : Fin m → X} {q x : Vec n} (hw : D.Working P G A lim i q w E) (hx : P.Reaches i q x)
    (hs : ∀ tuned, Newton.suggest I lstsq tuned (w.rest.get i).solver =
      ((w.rest.get i).solver, .ok fun j => if j ∈ P.gates i then some (some ((q + x) j)) else none))
    (hμ : ∀ M, (lim i).1 = some M → len x ≤ M) :
    D.PassesWithin P outs I lstsq G lim i (4 + 3 * R + i) ⟨w, volts q, i + 1, true, none⟩ := by
  obtain ⟨hw, hdot, hsen⟩ := hw
  have hnext : ∀ tuned, nextVoltages (Newton.solver I lstsq) tuned (w.rest.get i) =
      (w.rest.get i, .ok (volts (q + x))) :=
    fun tuned => P.next_short (t := w.rest.get i) hx.outside hw.tuner.lastVoltage hw.tuner.lastFailed (hs tuned) (by
      intro M hM
      exact hμ M (hw.limit.1.symm.trans hM))
  obtain ⟨hmet, hkeep⟩ := hx.met hC.plan
  have hbelow : ∀ j < i, P.Met j (q + x) := fun j hj => P.met_of_eq (Nat.ne_of_lt hj) hkeep (hw.met j hj)
  obtain ⟨M, hM, w₁, E₁, q₁, hit, hw₁, hdot₁, ht₁, hown, hsen₁, hsame₁⟩ := Sensor.round hC hI hi hw.world hdot (q := q)
    hbelow hw.world.ests hnext
  have hidle : P.Idle lim i (w₁.rest.tuners i) := by
    rw [ht₁]
    exact ⟨⟨hw.tuner.target, hw.tuner.gates, hw.tuner.index, hw.tuner.lastIndex, hw.tuner.queued⟩, hw.limit⟩
  obtain ⟨w₂, E₂, hw₂, ⟨-, hcall⟩ | ⟨hnot, -⟩⟩ := Sensor.evaluate_tuner hC.plan hC.outs hI (lstsq := lstsq) hi hw₁ hidle hdot₁ hsen₁
    (fun j hj => hsame₁.met hC.separate (hbelow j hj))
  · refine ⟨M + 1, by omega, w₂, q₁, ?_, hw₂.rest.passed (hsame₁.met hC.separate hmet), hw₂.dot, hsen₁⟩
    rw [iterates_add _ M 1 _ _ hit]
    exact hcall
  · exact absurd (hsame₁.met hC.separate hmet) hnot

/-- The rest of the way, `j + 1` slices of the step `x` from `q₀`, and the evaluation at the end. -/
theorem Sensor.long_phase {D : Sensor n} {P : Plan n m K} {outs : Nat → Volt (Fin n) → List Outcome} {R : Nat}
    (hC : D.Context P outs R) {I : Newton.EstI X (Fin n)} {lstsq : Newton.Lstsq (Fin n)}
    {G A : Fin m → X → Prop} (hI : ∀ k, Knows P I k (G k) (A k)) {lim : Nat → Val × Int} {i : Nat} (hi : i < K)
    {q₀ x : Vec n} (hx : P.Reaches i q₀ x)
    (hs : ∀ (q : Vec n) (t : OneTuner X n) (E : Fin m → X) (tuned : List String), P.On i q₀ q t →
        t.solver.ests = List.ofFn E → (∀ k, G k (E k)) → (∀ k, P.owner k = i → A k (E k)) →
        Newton.suggest I lstsq tuned t.solver =
          (t.solver, .ok fun j => if j ∈ P.gates i then some (some ((q + x) j)) else none))
    {M : ℝ} (hM : 0 < M) (hmax : (lim i).1 = some M) (hlong : M < len x) (N : Nat) :
    ∀ (j : Nat) (q : Vec n) (w : Sensed X n) (E : Fin m → X), P.World G lim i w.rest E → D.Tuner w.dot →
      (∀ k, P.owner k = i → A k (E k)) → P.On i q₀ q (w.rest.tuners i) →
      ((w.rest.tuners i).maxStep = (lim i).1 ∧ (w.rest.tuners i).maxNumber = (lim i).2) → (∀ l < i, P.Met l q) →
      left (len x) M (w.rest.tuners i) = j + 1 →
      (∀ w' E' q', D.Same (q + ((j + 1 : ℝ) * (M / len x)) • x) q' → D.Working P G A lim i q' w' E' →
        D.PassesWithin P outs I lstsq G lim i N ⟨w', volts q', i + 1, true, none⟩) →
      D.PassesWithin P outs I lstsq G lim i ((4 + 3 * R + i) * (j + 1) + N) ⟨w, volts q, i + 1, true, none⟩ := by
  have hpart : ∀ (q : Vec n) (c : ℝ) k, P.owner k ≠ i → P.scaled k (q + c • x) = P.scaled k q := by
    intro q c k ho
    rw [P.scaled_add]
    have : ∑ j, P.grad k j / P.scale k * (c • x) j = c * ∑ j, P.grad k j / P.scale k * x j := by
      rw [Finset.mul_sum]
      exact Finset.sum_congr rfl fun j _ => by simp; ring
    rw [this, hx.other k ho, mul_zero, add_zero]
  intro j
  induction j with
  | zero =>
    intro q w E hw hdot hact hon hlim hmet hleft hcont
    have hq : q + ((((0 : Nat) : ℝ) + 1) * (M / len x)) • x = q + (M / len x) • x := by simp
    rw [hq] at hcont
    have hon' : P.On i q₀ q (w.rest.get i) :=
      ⟨hon.target, hon.gates, hon.index, hon.lastIndex, hon.pos, hon.values, hon.lastVoltage, hon.lastFailed⟩
    have hleft' : left (len x) M (w.rest.get i) = 1 := by
      have : left (len x) M (w.rest.get i) = left (len x) M (w.rest.tuners i) := rfl
      rw [this, hleft]
      simp
    have hnext : ∀ tuned, nextVoltages (Newton.solver I lstsq) tuned (w.rest.get i) = _ := fun tuned =>
      P.next_long (t := w.rest.get i) hx.outside hon.lastVoltage hon.lastFailed
        (hs q (w.rest.get i) E tuned hon' hw.ests hw.know hact) hM (hlim.1.trans hmax) hlong
    rw [hleft'] at hnext
    have hmet' : ∀ l < i, P.Met l (q + (M / len x) • x) := fun l hl =>
      P.met_of_eq (Nat.ne_of_lt hl) (hpart q _) (hmet l hl)
    obtain ⟨L₀, hL₀, w₁, E₁, q₁, hit, hw₁, hdot₁, ht₁, hown, hsen₁, hsame₁⟩ := Sensor.round hC hI hi hw hdot (q := q)
      hmet' hw.ests hnext
    have hidle : P.Idle lim i (w₁.rest.tuners i) := by
      rw [ht₁]
      exact ⟨⟨hon.target, hon.gates, hon.index, hon.lastIndex, by simp⟩, hlim⟩
    obtain ⟨w₂, E₂, hw₂, ⟨hm, hcall⟩ | ⟨hnot, hcall⟩⟩ := Sensor.evaluate_tuner hC.plan hC.outs hI (lstsq := lstsq) hi hw₁ hidle hdot₁
      hsen₁ (fun l hl => hsame₁.met hC.separate (hmet' l hl))
    · refine ⟨L₀ + 1, by omega, w₂, _, ?_, hw₂.rest.passed hm, hw₂.dot, hsen₁⟩
      rw [iterates_add _ L₀ 1 _ _ hit]
      exact hcall
    · obtain ⟨L, hL, w', q', hit', hpass⟩ := hcont w₂ E₂ q₁ hsame₁ hw₂
      refine ⟨L₀ + (1 + L), by omega, w', q', ?_, hpass⟩
      rw [iterates_add _ L₀ (1 + L) _ _ hit, iterates_add _ 1 L _ _ hcall]
      exact hit'
  | succ j ih =>
    intro q w E hw hdot hact hon hlim hmet hleft hcont
    have hon' : P.On i q₀ q (w.rest.get i) :=
      ⟨hon.target, hon.gates, hon.index, hon.lastIndex, hon.pos, hon.values, hon.lastVoltage, hon.lastFailed⟩
    have hleft' : left (len x) M (w.rest.get i) - 1 = (j : Int) + 1 := by
      have : left (len x) M (w.rest.get i) = left (len x) M (w.rest.tuners i) := rfl
      rw [this, hleft]
      push_cast
      ring
    have hnext : ∀ tuned, nextVoltages (Newton.solver I lstsq) tuned (w.rest.get i) = _ := fun tuned =>
      P.next_long (t := w.rest.get i) hx.outside hon.lastVoltage hon.lastFailed
        (hs q (w.rest.get i) E tuned hon' hw.ests hw.know hact) hM (hlim.1.trans hmax) hlong
    rw [hleft'] at hnext
    have hmet' : ∀ l < i, P.Met l (q + (M / len x) • x) := fun l hl =>
      P.met_of_eq (Nat.ne_of_lt hl) (hpart q _) (hmet l hl)
    obtain ⟨L₀, hL₀, w₁, E₁, q', hit, hw₁, hdot₁, ht₁, hown, hsen₁, hsame₁⟩ := Sensor.round hC hI hi hw hdot (q := q)
      hmet' hw.ests hnext
    let t₁ : OneTuner X n := w₁.rest.get i
    let t₂ : OneTuner X n := { t₁ with
      lastVoltage := volts q'
      solver := { t₁.solver with pos := volts q' } }
    have hqueued : t₁.queued = (j : Int) + 1 := by
      simp only [t₁, Shared.get, ht₁]
    have hev : isTuned (Newton.solver I lstsq) (outs i (volts q')) (volts q') (w₁.rest.get i) = (t₂, .ok false) := by
      unfold isTuned
      simp only
      rw [if_pos (by
        have : (w₁.rest.get i).queued = (j : Int) + 1 := hqueued
        rw [this]; omega)]
      rfl
    have hcall := Sensor.evaluation_call (D := D) hi hev
    have hw₂ : P.World G lim i (w₁.rest.put i t₂) E₁ := by
      refine ⟨hw₁.ests, hw₁.know, fun l hl hli => ?_⟩
      simp only [Shared.put, Function.update_of_ne hli]
      exact hw₁.idle l hl hli
    have htun : (w₁.rest.put i t₂).tuners i = t₂ := by simp [Shared.put]
    have hon₂ : P.On i q₀ q' t₂ := by
      refine ⟨?_, ?_, ?_, ?_, rfl, ?_, rfl, ?_⟩
      · simp only [t₂, t₁, Shared.get, ht₁]; exact hon.target
      · simp only [t₂, t₁, Shared.get, ht₁]; exact hon.gates
      · simp only [t₂, t₁, Shared.get, ht₁]; exact hon.index
      · simp only [t₂, t₁, Shared.get, ht₁]; exact hon.lastIndex
      · simp only [t₂, t₁, Shared.get, ht₁]; exact hon.values
      · simp only [t₂, t₁, Shared.get, ht₁]; exact hon.lastFailed
    have hleft₂ : left (len x) M t₂ = j + 1 := by
      unfold left
      have : t₂.queued = (j : Int) + 1 := hqueued
      rw [if_neg (by omega), this]
    have hend : ∀ q'', D.Same (q' + ((j + 1 : ℝ) * (M / len x)) • x) q'' →
        D.Same (q + ((((j + 1 : Nat) : ℝ) + 1) * (M / len x)) • x) q'' := by
      intro q'' h l hl
      rw [h l hl]
      have := hsame₁ l hl
      simp only [Pi.add_apply, Pi.smul_apply, smul_eq_mul] at this ⊢
      rw [this]
      push_cast
      ring
    obtain ⟨L, hL, w', q'', hit', hpass⟩ := ih q' ⟨w₁.dot, w₁.rest.put i t₂⟩ E₁ hw₂ hdot₁
      (fun k ho => by rw [hown k ho]; exact hact k ho) (by simp only [htun]; exact hon₂)
      (by simp only [htun]; simp only [t₂, t₁, Shared.get, ht₁]; exact hlim)
      (fun l hl => hsame₁.met hC.separate (hmet' l hl)) (by simp only [htun]; exact hleft₂)
      (fun w' E' q'' h => hcont w' E' q'' (hend q'' h))
    refine ⟨L₀ + (1 + L), ?_, w', q'', ?_, hpass⟩
    · have : (4 + 3 * R + i) * (j + 1 + 1) = (4 + 3 * R + i) * (j + 1) + (4 + 3 * R + i) := by ring
      omega
    · rw [iterates_add _ L₀ (1 + L) _ _ hit, iterates_add _ 1 L _ _ hcall]
      exact hit'

/-- Tuner `i` with a limit: a point that meets the set points is at a distance of at most `B`. -/
theorem Sensor.limited_phase {D : Sensor n} {P : Plan n m K} {outs : Nat → Volt (Fin n) → List Outcome} {R : Nat}
    (hC : D.Context P outs R) {I : Newton.EstI X (Fin n)} {lstsq : Newton.Lstsq (Fin n)}
    (hl : Newton.LstsqSpec lstsq) {G A : Fin m → X → Prop} (hI : ∀ k, Knows P I k (G k) (A k))
    {lim : Nat → Val × Int} {i : Nat} (hi : i < K) {M : ℝ} (hM : 0 < M) (hmax : (lim i).1 = some M)
    (hν : 1 ≤ (lim i).2) :
    ∀ (F : Nat) (B : ℝ) (q y : Vec n) (w : Sensed X n) (E : Fin m → X), ⌊B / M⌋₊ ≤ F →
      D.Working P G A lim i q w E → P.Reaches i q y → len y ≤ B →
      D.PassesWithin P outs I lstsq G lim i ((4 + 3 * R + i) * (F + 1)) ⟨w, volts q, i + 1, true, none⟩ := by
  intro F
  induction F using Nat.strong_induction_on with
  | _ F ih =>
  intro B q y w E hF hw hy hB
  obtain ⟨x, hx, hshort, hs⟩ := P.newton hC.plan hl hI hi q
  have hLD : len x ≤ B := (hshort y hy).trans hB
  by_cases hlong : M < len x
  · obtain ⟨hint, hone⟩ := toInt_div hM hlong
    have hk : ∃ j : Nat, (j : Int) + 1 = min (toInt (len x / M)) (lim i).2 := by
      refine ⟨(min (toInt (len x / M)) (lim i).2 - 1).toNat, ?_⟩
      rw [hint]
      omega
    obtain ⟨j, hj⟩ := hk
    have hjF : (j : Int) + 1 ≤ (⌊len x / M⌋₊ : Nat) := by
      rw [hj, hint]; exact min_le_left _ _
    have hjF' : j + 1 ≤ ⌊len x / M⌋₊ := by exact_mod_cast hjF
    have hfl : ⌊len x / M⌋₊ ≤ ⌊B / M⌋₊ := Nat.floor_le_floor (by gcongr)
    have hL : 0 < len x := lt_trans hM hlong
    have hjL : ((j + 1 : ℝ)) * M ≤ len x := by
      have := Nat.floor_le (a := len x / M) (by positivity)
      have h2 : ((j + 1 : Nat) : ℝ) ≤ (⌊len x / M⌋₊ : ℝ) := by exact_mod_cast hjF'
      have h3 : ((j + 1 : Nat) : ℝ) ≤ len x / M := h2.trans this
      rw [le_div_iff₀ hM] at h3
      push_cast at h3
      exact h3
    have hleft : left (len x) M (w.rest.tuners i) = j + 1 := by
      unfold left
      rw [if_pos hw.rest.tuner.queued, hw.rest.limit.2, hj]
    obtain ⟨F', hF'⟩ : ∃ F', F' = F - (j + 1) := ⟨_, rfl⟩
    have := Sensor.long_phase hC hI hi hx hs hM hmax hlong ((4 + 3 * R + i) * (F' + 1)) j q w E hw.rest.world hw.dot
      hw.rest.active hw.rest.tuner.on hw.rest.limit hw.rest.met hleft (by
        intro w' E' q' hsame hw'
        have hc : ((j + 1 : ℝ) * (M / len x)) ≤ 1 := by
          rw [← mul_div_assoc, div_le_one hL]
          exact hjL
        refine ih F' (by omega) (len x - (j + 1) * M) _ _ w' E' ?_ hw' (hsame.reaches hC.separate (hx.part _).1) ?_
        · have h1 : (len x - (j + 1) * M) / M = len x / M - ((j + 1 : Nat) : ℝ) := by
            push_cast
            field_simp
          rw [h1, Nat.floor_sub_natCast]
          omega
        · rw [len_smul, abs_of_nonneg (by linarith), sub_mul, one_mul]
          field_simp
          exact le_refl _)
    obtain ⟨L, hL', hp⟩ := this
    refine ⟨L, hL'.trans ?_, hp⟩
    have h1 : (4 + 3 * R + i) * (j + 1) + (4 + 3 * R + i) * (F' + 1) = (4 + 3 * R + i) * (j + 1 + (F' + 1)) := by ring
    rw [h1]
    exact Nat.mul_le_mul_left _ (by omega)
  · obtain ⟨L, hL, hp⟩ := Sensor.short_phase hC hI hi hw hx (fun tuned => hs q (w.rest.get i) E tuned
      ⟨hw.rest.tuner.target, hw.rest.tuner.gates, hw.rest.tuner.index, hw.rest.tuner.lastIndex, hw.rest.tuner.pos,
        hw.rest.tuner.values, hw.rest.tuner.lastVoltage, hw.rest.tuner.lastFailed⟩ hw.rest.world.ests hw.rest.world.know
        hw.rest.active) (by
      intro M' hM'
      rw [hmax] at hM'
      cases hM'
      exact not_lt.1 hlong)
    refine ⟨L, hL.trans ?_, hp⟩
    calc 4 + 3 * R + i = (4 + 3 * R + i) * 1 := (mul_one _).symm
      _ ≤ (4 + 3 * R + i) * (F + 1) := Nat.mul_le_mul_left _ (by omega)

/-- Tuner `i` without limit. -/
theorem Sensor.unlimited_phase {D : Sensor n} {P : Plan n m K} {outs : Nat → Volt (Fin n) → List Outcome} {R : Nat}
    (hC : D.Context P outs R) {I : Newton.EstI X (Fin n)} {lstsq : Newton.Lstsq (Fin n)}
    (hl : Newton.LstsqSpec lstsq) {G A : Fin m → X → Prop} (hI : ∀ k, Knows P I k (G k) (A k))
    {lim : Nat → Val × Int} {i : Nat} (hi : i < K) (hmax : (lim i).1 = none) {q : Vec n} {w : Sensed X n}
    {E : Fin m → X} (hw : D.Working P G A lim i q w E) :
    D.PassesWithin P outs I lstsq G lim i (4 + 3 * R + i) ⟨w, volts q, i + 1, true, none⟩ := by
  obtain ⟨x, hx, -, hs⟩ := P.newton hC.plan hl hI hi q
  exact Sensor.short_phase hC hI hi hw hx (fun tuned => hs q (w.rest.get i) E tuned
    ⟨hw.rest.tuner.target, hw.rest.tuner.gates, hw.rest.tuner.index, hw.rest.tuner.lastIndex, hw.rest.tuner.pos,
      hw.rest.tuner.values, hw.rest.tuner.lastVoltage, hw.rest.tuner.lastFailed⟩ hw.rest.world.ests hw.rest.world.know
      hw.rest.active)
    (by rw [hmax]; simp)

/-- Tuner `i` from its first evaluation on. -/
theorem Sensor.pass_tuner {D : Sensor n} {P : Plan n m K} {outs : Nat → Volt (Fin n) → List Outcome} {R : Nat}
    (hC : D.Context P outs R) {I : Newton.EstI X (Fin n)} {lstsq : Newton.Lstsq (Fin n)}
    (hl : Newton.LstsqSpec lstsq) {G A : Fin m → X → Prop} (hI : ∀ k, Knows P I k (G k) (A k))
    {lim : Nat → Val × Int} {i : Nat} (hi : i < K) (hlim : Limits (lim i)) {q : Vec n} {w : Sensed X n}
    (hw : D.Passed P G lim i q w) :
    ∃ N, ((lim i).1 = none → N = 5 + 3 * R + i) ∧
      D.PassesWithin P outs I lstsq G lim i N ⟨w, volts q, i + 1, false, none⟩ := by
  obtain ⟨hw, hdot, hsen⟩ := hw
  obtain ⟨E, hE⟩ := hw.world
  have hworld : P.World G lim i w.rest E := ⟨hE.ests, hE.know, fun j hj _ => hE.idle j hj hj.ne⟩
  obtain ⟨w₁, E₁, hw₁, ⟨hm, hcall⟩ | ⟨-, hcall⟩⟩ := Sensor.evaluate_tuner hC.plan hC.outs hI (lstsq := lstsq) hi hworld
    (hE.idle i hi hi.ne) hdot hsen hw.met
  · exact ⟨5 + 3 * R + i, fun _ => rfl, 1, by omega, w₁, q, hcall, hw₁.rest.passed hm, hw₁.dot, hsen⟩
  · have key : ∀ N, D.PassesWithin P outs I lstsq G lim i N ⟨w₁, volts q, i + 1, true, none⟩ →
        D.PassesWithin P outs I lstsq G lim i (1 + N) ⟨w, volts q, i + 1, false, none⟩ := by
      rintro N ⟨L, hL, w', q', hit, hp⟩
      refine ⟨1 + L, by omega, w', q', ?_, hp⟩
      rw [iterates_add _ 1 L _ _ hcall]
      exact hit
    rcases hlim with hnone | ⟨M, hM, hpos, hν⟩
    · have := key _ (Sensor.unlimited_phase hC hl hI hi hnone hw₁)
      exact ⟨5 + 3 * R + i, fun _ => rfl, by
        rw [show 5 + 3 * R + i = 1 + (4 + 3 * R + i) by omega]; exact this⟩
    · obtain ⟨x, hx, -, -⟩ := P.newton hC.plan hl hI hi q
      have := key _ (Sensor.limited_phase hC hl hI hi hpos hM hν _ (len x) q x w₁ E₁ (le_refl _) hw₁ hx (le_refl _))
      refine ⟨_, fun h => ?_, this⟩
      rw [hM] at h
      cases h

/-- All tuners from `i` on. -/
theorem Sensor.pass_all {D : Sensor n} {P : Plan n m K} {outs : Nat → Volt (Fin n) → List Outcome} {R : Nat}
    (hC : D.Context P outs R) {I : Newton.EstI X (Fin n)} {lstsq : Newton.Lstsq (Fin n)}
    (hl : Newton.LstsqSpec lstsq) {G A : Fin m → X → Prop} (hI : ∀ k, Knows P I k (G k) (A k))
    {lim : Nat → Val × Int} (hlim : ∀ i < K, Limits (lim i)) :
    ∀ (d i : Nat) (_ : i + d = K) (q : Vec n) (w : Sensed X n), D.Passed P G lim i q w →
      ∃ N, ((∀ i < K, (lim i).1 = none) → N = ∑ l ∈ Finset.Ico i K, (5 + 3 * R + l)) ∧
        P.SensedWithin D outs I lstsq N ⟨w, volts q, i + 1, false, none⟩ := by
  intro d
  induction d with
  | zero =>
    intro i hi q w hw
    obtain rfl : i = K := by omega
    exact ⟨0, fun _ => by simp, 0, le_refl _, _, rfl, by simp [isComplete, sensedHierarchy], q, rfl, hw.sensitive,
      hw.rest.met⟩
  | succ d ih =>
    intro i hi q w hw
    obtain ⟨N₁, hN₁, L₁, hL₁, w', q', hit, hp⟩ := Sensor.pass_tuner hC hl hI (by omega) (hlim i (by omega)) hw
    obtain ⟨N₂, hN₂, L₂, hL₂, s', hit₂, hc⟩ := ih (i + 1) (by omega) q' w' hp
    refine ⟨N₁ + N₂, fun h => ?_, L₁ + L₂, by omega, s', ?_, hc⟩
    · rw [hN₁ (h i (by omega)), hN₂ h, Finset.sum_eq_sum_Ico_succ_bot (show i < K by omega)]
    · rw [iterates_add _ L₁ L₂ _ _ hit]
      exact hit₂

end Qtune.EndToEnd
