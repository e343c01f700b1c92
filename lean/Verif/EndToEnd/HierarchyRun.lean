import Verif.EndToEnd.HierarchyLemmas

/-! # Runs of an autotuner with several tuners -/

namespace Qtune.EndToEnd

open Qtune.Tuner Qtune.Gradient Qtune.Autotuner

variable {n m K : Nat} {X : Type}

/-- Tuner `j` between two uses, with the limits `lim j`. -/
def Plan.Idle (P : Plan n m K) (lim : Nat → Val × Int) (j : Nat) (t : OneTuner X n) : Prop :=
  P.Tuner j t ∧ t.maxStep = (lim j).1 ∧ t.maxNumber = (lim j).2

/-- The estimators know the gradients, all tuners but `i` are idle. -/
structure Plan.World (P : Plan n m K) (G : Fin m → X → Prop) (lim : Nat → Val × Int) (i : Nat) (w : Shared X n)
    (E : Fin m → X) : Prop where
  ests : w.ests = List.ofFn E
  know : ∀ k, G k (E k)
  idle : ∀ j < K, j ≠ i → P.Idle lim j (w.tuners j)

abbrev World' (X : Type) (n : Nat) := Autotuner.State (Shared X n) (Volt (Fin n)) (Volt (Fin n))

theorem iterates_one {W Y V Q C : Type} {H : Hierarchy W Y V Q C} {s s' : Autotuner.State W Y V}
    (h1 : (iterate H (.ok ()) s).1 = s') (h2 : (iterate H (.ok ()) s).2.2 = .ok ()) :
    iterates H 1 s = .ok s' := by
  unfold iterates
  rcases hi : iterate H (.ok ()) s with ⟨s₁, ev, r⟩
  rw [hi] at h1 h2
  simp only at h1 h2
  subst h1 h2
  rfl

/-- One evaluation. -/
theorem evaluation_call {P : Plan n m K} {I : Newton.EstI X (Fin n)} {lstsq : Newton.Lstsq (Fin n)} {j : Nat}
    (hj : j < K) {w : Shared X n} {q : Vec n} {t' : OneTuner X n} {b : Bool}
    (h : isTuned (Newton.solver I lstsq) (P.outs j (volts q)) (volts q) (w.get j) = (t', .ok b)) :
    iterates (multiHierarchy I lstsq K P.outs) 1 ⟨w, volts q, j, false, none⟩ =
      .ok ⟨w.put j t', volts q, if b then j + 1 else j, !b, none⟩ := by
  apply iterates_one
  · cases b <;> simp [iterate, multiHierarchy, isComplete, finish, h, hj.ne, Nat.not_le.2 hj]
  · cases b <;> simp [iterate, multiHierarchy, isComplete, finish, h, hj.ne, Nat.not_le.2 hj]

/-- The suggestion and the setting of the voltages. -/
theorem suggestion_calls {P : Plan n m K} {I : Newton.EstI X (Fin n)} {lstsq : Newton.Lstsq (Fin n)} {i : Nat}
    (hi : i < K) {w : Shared X n} {q q' : Vec n} {t' : OneTuner X n}
    (h : ∀ tuned, nextVoltages (Newton.solver I lstsq) tuned (w.get i) = (t', .ok (volts q'))) :
    iterates (multiHierarchy I lstsq K P.outs) 2 ⟨w, volts q, i, true, none⟩ =
      .ok ⟨w.put i t', volts q', 0, false, none⟩ := by
  have h1 : iterates (multiHierarchy I lstsq K P.outs) 1 ⟨w, volts q, i, true, none⟩ =
      .ok ⟨w.put i t', volts q, i, false, some (volts q')⟩ := by
    apply iterates_one
    · simp [iterate, multiHierarchy, isComplete, finish, h, hi.ne, Nat.not_le.2 hi]
    · simp [iterate, multiHierarchy, isComplete, finish, h, hi.ne, Nat.not_le.2 hi]
  rw [iterates_add _ 1 1 _ _ h1]
  apply iterates_one
  · simp [iterate, multiHierarchy, isComplete, finish, hi.ne, volts]
  · simp [iterate, multiHierarchy, isComplete, finish, hi.ne, volts]

theorem get_tuner {P : Plan n m K} {j : Nat} {w : Shared X n} (h : P.Tuner j (w.tuners j)) : P.Tuner j (w.get j) :=
  ⟨h.target, h.gates, h.index, h.lastIndex, h.queued⟩

/-- The tuners below `i` are evaluated again and are still tuned. -/
theorem climb {P : Plan n m K} (hP : P.Valid) {I : Newton.EstI X (Fin n)} {lstsq : Newton.Lstsq (Fin n)}
    {G A : Fin m → X → Prop} (hI : ∀ k, Knows P I k (G k) (A k)) {lim : Nat → Val × Int} {i : Nat} (hi : i ≤ K)
    {w : Shared X n} {E : Fin m → X} (hw : P.World G lim i w E) {q : Vec n} (hmet : ∀ j < i, P.Met j q) :
    ∀ j ≤ i, ∃ w' E', iterates (multiHierarchy I lstsq K P.outs) j ⟨w, volts q, 0, false, none⟩ =
        .ok ⟨w', volts q, j, false, none⟩ ∧ P.World G lim i w' E' ∧ w'.tuners i = w.tuners i ∧
      ∀ k, P.owner k = i → E' k = E k := by
  intro j
  induction j with
  | zero => exact fun _ => ⟨w, E, rfl, hw, rfl, fun _ _ => rfl⟩
  | succ j ih =>
    intro hj
    obtain ⟨w₁, E₁, hit, hw₁, hsame, hown⟩ := ih (by omega)
    have hidle := hw₁.idle j (by omega) (by omega)
    obtain ⟨E', t', b, hev, hA, hother, hests, hAt, hm1, hm2, hb⟩ := P.evaluation hP hI (lstsq := lstsq)
      (i := j) (by omega) hw₁.know (get_tuner hidle.1) hw₁.ests q
    have hb' : b = true := hb.2 (hmet j (by omega))
    subst hb'
    refine ⟨w₁.put j t', E', ?_, ⟨hests, fun k => ?_, fun l hl hli => ?_⟩, ?_, fun k ho => ?_⟩
    · rw [iterates_add _ j 1 _ _ hit]
      exact evaluation_call (by omega) hev
    · by_cases ho : P.owner k = j
      · exact (hI k).weaken _ (hA k ho)
      · rw [hother k ho]; exact hw₁.know k
    · by_cases hlj : l = j
      · subst hlj
        simp only [Shared.put, Function.update_self]
        exact ⟨⟨hAt.target, hAt.gates, hAt.index, hAt.lastIndex, hAt.queued⟩, hm1.trans hidle.2.1,
          hm2.trans hidle.2.2⟩
      · simp only [Shared.put, Function.update_of_ne hlj]
        exact hw₁.idle l hl hli
    · simp only [Shared.put]
      rw [Function.update_of_ne (by omega)]
      exact hsame
    · rw [hother k (by omega), hown k ho]

/-- Suggestion, setting of the voltages and evaluation of the tuners below. -/
theorem round {P : Plan n m K} (hP : P.Valid) {I : Newton.EstI X (Fin n)} {lstsq : Newton.Lstsq (Fin n)}
    {G A : Fin m → X → Prop} (hI : ∀ k, Knows P I k (G k) (A k)) {lim : Nat → Val × Int} {i : Nat} (hi : i < K)
    {w : Shared X n} {E : Fin m → X} (hw : P.World G lim i w E) {q q' : Vec n} (hmet : ∀ j < i, P.Met j q')
    {t' : OneTuner X n} (ht' : t'.solver.ests = List.ofFn E)
    (h : ∀ tuned, nextVoltages (Newton.solver I lstsq) tuned (w.get i) = (t', .ok (volts q'))) :
    ∃ w' E', iterates (multiHierarchy I lstsq K P.outs) (2 + i) ⟨w, volts q, i, true, none⟩ =
        .ok ⟨w', volts q', i, false, none⟩ ∧ P.World G lim i w' E' ∧ w'.tuners i = t' ∧
      ∀ k, P.owner k = i → E' k = E k := by
  have hw' : P.World G lim i (w.put i t') E := by
    refine ⟨ht', hw.know, fun j hj hji => ?_⟩
    simp only [Shared.put, Function.update_of_ne hji]
    exact hw.idle j hj hji
  obtain ⟨w₁, E₁, hit, hw₁, hsame, hown⟩ := climb hP hI (lstsq := lstsq) hi.le hw' hmet i (le_refl _)
  refine ⟨w₁, E₁, ?_, hw₁, ?_, hown⟩
  · rw [iterates_add _ 2 i _ _ (suggestion_calls hi h)]
    exact hit
  · rw [hsame]
    simp [Shared.put]

/-- The tuner `i` and the tuners below are tuned at `q`, everything is idle. -/
structure Plan.Passed (P : Plan n m K) (G : Fin m → X → Prop) (lim : Nat → Val × Int) (i : Nat) (q : Vec n)
    (w : Shared X n) : Prop where
  world : ∃ E, P.World G lim K w E
  met : ∀ j < i, P.Met j q

/-- The limits of a tuner: none, or a positive step size and a positive number of steps. -/
def Limits (l : Val × Int) : Prop := l.1 = none ∨ ∃ M, l.1 = some M ∧ 0 < M ∧ 1 ≤ l.2

/-- The situation after an evaluation of tuner `i` at `q`. -/
structure Plan.Working (P : Plan n m K) (G A : Fin m → X → Prop) (lim : Nat → Val × Int) (i : Nat) (q : Vec n)
    (w : Shared X n) (E : Fin m → X) : Prop where
  world : P.World G lim i w E
  active : ∀ k, P.owner k = i → A k (E k)
  tuner : P.At i q (w.tuners i)
  limit : (w.tuners i).maxStep = (lim i).1 ∧ (w.tuners i).maxNumber = (lim i).2
  met : ∀ j < i, P.Met j q

/-- The evaluation of tuner `i`. -/
theorem evaluate_tuner {P : Plan n m K} (hP : P.Valid) {I : Newton.EstI X (Fin n)} {lstsq : Newton.Lstsq (Fin n)}
    {G A : Fin m → X → Prop} (hI : ∀ k, Knows P I k (G k) (A k)) {lim : Nat → Val × Int} {i : Nat} (hi : i < K)
    {w : Shared X n} {E : Fin m → X} (hw : P.World G lim i w E) (hidle : P.Idle lim i (w.tuners i))
    {q : Vec n} (hmet : ∀ j < i, P.Met j q) :
    ∃ w' E', P.Working G A lim i q w' E' ∧
      ((P.Met i q ∧ iterates (multiHierarchy I lstsq K P.outs) 1 ⟨w, volts q, i, false, none⟩ =
        .ok ⟨w', volts q, i + 1, false, none⟩) ∨
      (¬ P.Met i q ∧ iterates (multiHierarchy I lstsq K P.outs) 1 ⟨w, volts q, i, false, none⟩ =
        .ok ⟨w', volts q, i, true, none⟩)) := by
  obtain ⟨E', t', b, hev, hA, hother, hests, hAt, hm1, hm2, hb⟩ := P.evaluation hP hI (lstsq := lstsq)
    hi hw.know (get_tuner hidle.1) hw.ests q
  have hcall := evaluation_call (P := P) hi hev
  refine ⟨w.put i t', E', ⟨⟨hests, fun k => ?_, fun l hl hli => ?_⟩, hA, ?_, ?_, hmet⟩, ?_⟩
  · by_cases ho : P.owner k = i
    · exact (hI k).weaken _ (hA k ho)
    · rw [hother k ho]; exact hw.know k
  · simp only [Shared.put, Function.update_of_ne hli]
    exact hw.idle l hl hli
  · simp only [Shared.put, Function.update_self]
    exact hAt
  · simp only [Shared.put, Function.update_self]
    exact ⟨hm1.trans hidle.2.1, hm2.trans hidle.2.2⟩
  · cases b with
    | true => exact .inl ⟨hb.1 rfl, hcall⟩
    | false => exact .inr ⟨fun h => by (have := hb.2 h; cases this), hcall⟩

theorem Plan.Working.passed {P : Plan n m K} {G A : Fin m → X → Prop} {lim : Nat → Val × Int} {i : Nat}
    {q : Vec n} {w : Shared X n} {E : Fin m → X} (h : P.Working G A lim i q w E) (hm : P.Met i q) :
    P.Passed G lim (i + 1) q w := by
  refine ⟨⟨E, h.world.ests, h.world.know, fun j hj _ => ?_⟩, fun j hj => ?_⟩
  · by_cases hji : j = i
    · subst hji
      exact ⟨⟨h.tuner.target, h.tuner.gates, h.tuner.index, h.tuner.lastIndex, h.tuner.queued⟩, h.limit⟩
    · exact h.world.idle j hj hji
  · rcases Nat.lt_succ_iff_lt_or_eq.1 hj with hj | rfl
    · exact h.met j hj
    · exact hm

/-- Calls until tuner `i` is passed. -/
def Plan.PassesWithin (P : Plan n m K) (I : Newton.EstI X (Fin n)) (lstsq : Newton.Lstsq (Fin n))
    (G : Fin m → X → Prop) (lim : Nat → Val × Int) (i N : Nat) (s : World' X n) : Prop :=
  ∃ M ≤ N, ∃ w' q', iterates (multiHierarchy I lstsq K P.outs) M s = .ok ⟨w', volts q', i + 1, false, none⟩ ∧
    P.Passed G lim (i + 1) q' w'

/-- A step that is short enough. -/
theorem short_phase {P : Plan n m K} (hP : P.Valid) {I : Newton.EstI X (Fin n)} {lstsq : Newton.Lstsq (Fin n)}
    {G A : Fin m → X → Prop} (hI : ∀ k, Knows P I k (G k) (A k)) {lim : Nat → Val × Int} {i : Nat} (hi : i < K)
    {w : Shared X n} {E : Fin m → X} {q x : Vec n} (hw : P.Working G A lim i q w E) (hx : P.Reaches i q x)
    (hs : ∀ tuned, Newton.suggest I lstsq tuned (w.get i).solver =
      ((w.get i).solver, .ok fun j => if j ∈ P.gates i then some (some ((q + x) j)) else none))
    (hμ : ∀ M, (lim i).1 = some M → len x ≤ M) :
    P.PassesWithin I lstsq G lim i (3 + i) ⟨w, volts q, i, true, none⟩ := by
  have hnext : ∀ tuned, nextVoltages (Newton.solver I lstsq) tuned (w.get i) = (w.get i, .ok (volts (q + x))) :=
    fun tuned => P.next_short (t := w.get i) hx.outside hw.tuner.lastVoltage hw.tuner.lastFailed (hs tuned) (by
      intro M hM
      exact hμ M (hw.limit.1.symm.trans hM))
  obtain ⟨hmet, hkeep⟩ := hx.met hP
  have hbelow : ∀ j < i, P.Met j (q + x) := fun j hj => P.met_of_eq (Nat.ne_of_lt hj) hkeep (hw.met j hj)
  obtain ⟨w₁, E₁, hit, hw₁, ht₁, hown⟩ := round hP hI hi hw.world (q := q) hbelow hw.world.ests hnext
  have hidle : P.Idle lim i (w₁.tuners i) := by
    rw [ht₁]
    exact ⟨⟨hw.tuner.target, hw.tuner.gates, hw.tuner.index, hw.tuner.lastIndex, hw.tuner.queued⟩, hw.limit⟩
  obtain ⟨w₂, E₂, hw₂, ⟨-, hcall⟩ | ⟨hnot, -⟩⟩ := evaluate_tuner hP hI (lstsq := lstsq) hi hw₁ hidle hbelow
  · refine ⟨2 + i + 1, by omega, w₂, q + x, ?_, hw₂.passed hmet⟩
    rw [iterates_add _ (2 + i) 1 _ _ hit]
    exact hcall
  · exact absurd hmet hnot

/-- The rest of the way, `j + 1` slices of the step `x` from `q₀`, and the evaluation at the end. -/
theorem long_phase {P : Plan n m K} (hP : P.Valid) {I : Newton.EstI X (Fin n)} {lstsq : Newton.Lstsq (Fin n)}
    {G A : Fin m → X → Prop} (hI : ∀ k, Knows P I k (G k) (A k)) {lim : Nat → Val × Int} {i : Nat} (hi : i < K)
    {q₀ x : Vec n} (hx : P.Reaches i q₀ x)
    (hs : ∀ (q : Vec n) (t : OneTuner X n) (E : Fin m → X) (tuned : List String), P.On i q₀ q t →
        t.solver.ests = List.ofFn E → (∀ k, G k (E k)) → (∀ k, P.owner k = i → A k (E k)) →
        Newton.suggest I lstsq tuned t.solver =
          (t.solver, .ok fun j => if j ∈ P.gates i then some (some ((q + x) j)) else none))
    {M : ℝ} (hM : 0 < M) (hmax : (lim i).1 = some M) (hlong : M < len x) (N : Nat) :
    ∀ (j : Nat) (q : Vec n) (w : Shared X n) (E : Fin m → X), P.World G lim i w E →
      (∀ k, P.owner k = i → A k (E k)) → P.On i q₀ q (w.tuners i) →
      ((w.tuners i).maxStep = (lim i).1 ∧ (w.tuners i).maxNumber = (lim i).2) → (∀ l < i, P.Met l q) →
      left (len x) M (w.tuners i) = j + 1 →
      (∀ w' E', P.Working G A lim i (q + ((j + 1 : ℝ) * (M / len x)) • x) w' E' →
        P.PassesWithin I lstsq G lim i N ⟨w', volts (q + ((j + 1 : ℝ) * (M / len x)) • x), i, true, none⟩) →
      P.PassesWithin I lstsq G lim i ((3 + i) * (j + 1) + N) ⟨w, volts q, i, true, none⟩ := by
  have hpart : ∀ (q : Vec n) (c : ℝ) k, P.owner k ≠ i → P.scaled k (q + c • x) = P.scaled k q := by
    intro q c k ho
    rw [P.scaled_add]
    have : ∑ j, P.grad k j / P.scale k * (c • x) j = c * ∑ j, P.grad k j / P.scale k * x j := by
      rw [Finset.mul_sum]
      exact Finset.sum_congr rfl fun j _ => by simp; ring
    rw [this, hx.other k ho, mul_zero, add_zero]
  intro j
  induction j with
  | zero =>
    intro q w E hw hact hon hlim hmet hleft hcont
    have hq : q + ((((0 : Nat) : ℝ) + 1) * (M / len x)) • x = q + (M / len x) • x := by simp
    rw [hq] at hcont
    have hon' : P.On i q₀ q (w.get i) :=
      ⟨hon.target, hon.gates, hon.index, hon.lastIndex, hon.pos, hon.values, hon.lastVoltage, hon.lastFailed⟩
    have hleft' : left (len x) M (w.get i) = 1 := by
      have : left (len x) M (w.get i) = left (len x) M (w.tuners i) := rfl
      rw [this, hleft]
      simp
    have hnext : ∀ tuned, nextVoltages (Newton.solver I lstsq) tuned (w.get i) = _ := fun tuned =>
      P.next_long (t := w.get i) hx.outside hon.lastVoltage hon.lastFailed
        (hs q (w.get i) E tuned hon' hw.ests hw.know hact) hM (hlim.1.trans hmax) hlong
    rw [hleft'] at hnext
    have hmet' : ∀ l < i, P.Met l (q + (M / len x) • x) := fun l hl =>
      P.met_of_eq (Nat.ne_of_lt hl) (hpart q _) (hmet l hl)
    obtain ⟨w₁, E₁, hit, hw₁, ht₁, hown⟩ := round hP hI hi hw (q := q) hmet' hw.ests hnext
    have hidle : P.Idle lim i (w₁.tuners i) := by
      rw [ht₁]
      exact ⟨⟨hon.target, hon.gates, hon.index, hon.lastIndex, by simp⟩, hlim⟩
    obtain ⟨w₂, E₂, hw₂, ⟨hm, hcall⟩ | ⟨hnot, hcall⟩⟩ := evaluate_tuner hP hI (lstsq := lstsq) hi hw₁ hidle hmet'
    · refine ⟨2 + i + 1, by omega, w₂, _, ?_, hw₂.passed hm⟩
      rw [iterates_add _ (2 + i) 1 _ _ hit]
      exact hcall
    · obtain ⟨L, hL, w', q', hit', hpass⟩ := hcont w₂ E₂ hw₂
      refine ⟨2 + i + (1 + L), by omega, w', q', ?_, hpass⟩
      rw [iterates_add _ (2 + i) (1 + L) _ _ hit, iterates_add _ 1 L _ _ hcall]
      exact hit'
  | succ j ih =>
    intro q w E hw hact hon hlim hmet hleft hcont
    have hon' : P.On i q₀ q (w.get i) :=
      ⟨hon.target, hon.gates, hon.index, hon.lastIndex, hon.pos, hon.values, hon.lastVoltage, hon.lastFailed⟩
    have hleft' : left (len x) M (w.get i) - 1 = (j : Int) + 1 := by
      have : left (len x) M (w.get i) = left (len x) M (w.tuners i) := rfl
      rw [this, hleft]
      push_cast
      ring
    have hnext : ∀ tuned, nextVoltages (Newton.solver I lstsq) tuned (w.get i) = _ := fun tuned =>
      P.next_long (t := w.get i) hx.outside hon.lastVoltage hon.lastFailed
        (hs q (w.get i) E tuned hon' hw.ests hw.know hact) hM (hlim.1.trans hmax) hlong
    rw [hleft'] at hnext
    let q' : Vec n := q + (M / len x) • x
    have hmet' : ∀ l < i, P.Met l q' := fun l hl =>
      P.met_of_eq (Nat.ne_of_lt hl) (hpart q _) (hmet l hl)
    obtain ⟨w₁, E₁, hit, hw₁, ht₁, hown⟩ := round hP hI hi hw (q := q) hmet' hw.ests hnext
    let t₁ : OneTuner X n := w₁.get i
    let t₂ : OneTuner X n := { t₁ with
      lastVoltage := volts q'
      solver := { t₁.solver with pos := volts q' } }
    have hqueued : t₁.queued = (j : Int) + 1 := by
      simp only [t₁, Shared.get, ht₁]
    have hev : isTuned (Newton.solver I lstsq) (P.outs i (volts q')) (volts q') (w₁.get i) = (t₂, .ok false) := by
      unfold isTuned
      simp only
      rw [if_pos (by
        have : (w₁.get i).queued = (j : Int) + 1 := hqueued
        rw [this]; omega)]
      rfl
    have hcall := evaluation_call (P := P) hi hev
    have hw₂ : P.World G lim i (w₁.put i t₂) E₁ := by
      refine ⟨hw₁.ests, hw₁.know, fun l hl hli => ?_⟩
      simp only [Shared.put, Function.update_of_ne hli]
      exact hw₁.idle l hl hli
    have htun : (w₁.put i t₂).tuners i = t₂ := by simp [Shared.put]
    have hon₂ : P.On i q₀ q' t₂ := by
      refine ⟨?_, ?_, ?_, ?_, rfl, ?_, rfl, ?_⟩
      · simp only [t₂, t₁, Shared.get, ht₁]; exact hon.target
      · simp only [t₂, t₁, Shared.get, ht₁]; exact hon.gates
      · simp only [t₂, t₁, Shared.get, ht₁]; exact hon.index
      · simp only [t₂, t₁, Shared.get, ht₁]; exact hon.lastIndex
      · simp only [t₂, t₁, Shared.get, ht₁]; exact hon.values
      · simp only [t₂, t₁, Shared.get, ht₁]; exact hon.lastFailed
    have hleft₂ : left (len x) M t₂ = j + 1 := by
      unfold left
      have : t₂.queued = (j : Int) + 1 := hqueued
      rw [if_neg (by omega), this]
    have hend : q' + ((j + 1 : ℝ) * (M / len x)) • x =
        q + ((((j + 1 : Nat) : ℝ) + 1) * (M / len x)) • x := by
      simp only [q']
      push_cast
      rw [add_assoc, ← add_smul]
      congr 2
      ring
    obtain ⟨L, hL, w', q'', hit', hpass⟩ := ih q' (w₁.put i t₂) E₁ hw₂
      (fun k ho => by rw [hown k ho]; exact hact k ho) (by rw [htun]; exact hon₂)
      (by rw [htun]; simp only [t₂, t₁, Shared.get, ht₁]; exact hlim) hmet' (by rw [htun]; exact hleft₂)
      (by rw [hend]; exact hcont)
    refine ⟨2 + i + (1 + L), ?_, w', q'', ?_, hpass⟩
    · have : (3 + i) * (j + 1 + 1) = (3 + i) * (j + 1) + (3 + i) := by ring
      omega
    · rw [iterates_add _ (2 + i) (1 + L) _ _ hit, iterates_add _ 1 L _ _ hcall]
      exact hit'

/-- Tuner `i` with a limit: a point that meets the set points is at a distance of at most `D`. -/
theorem limited_phase {P : Plan n m K} (hP : P.Valid) {I : Newton.EstI X (Fin n)} {lstsq : Newton.Lstsq (Fin n)}
    (hl : Newton.LstsqSpec lstsq) {G A : Fin m → X → Prop} (hI : ∀ k, Knows P I k (G k) (A k))
    {lim : Nat → Val × Int} {i : Nat} (hi : i < K) {M : ℝ} (hM : 0 < M) (hmax : (lim i).1 = some M)
    (hν : 1 ≤ (lim i).2) :
    ∀ (F : Nat) (D : ℝ) (q y : Vec n) (w : Shared X n) (E : Fin m → X), ⌊D / M⌋₊ ≤ F →
      P.Working G A lim i q w E → P.Reaches i q y → len y ≤ D →
      P.PassesWithin I lstsq G lim i ((3 + i) * (F + 1)) ⟨w, volts q, i, true, none⟩ := by
  intro F
  induction F using Nat.strong_induction_on with
  | _ F ih =>
  intro D q y w E hF hw hy hD
  obtain ⟨x, hx, hshort, hs⟩ := P.newton hP hl hI hi q
  have hLD : len x ≤ D := (hshort y hy).trans hD
  by_cases hlong : M < len x
  · obtain ⟨hint, hone⟩ := toInt_div hM hlong
    have hk : ∃ j : Nat, (j : Int) + 1 = min (toInt (len x / M)) (lim i).2 := by
      refine ⟨(min (toInt (len x / M)) (lim i).2 - 1).toNat, ?_⟩
      rw [hint]
      omega
    obtain ⟨j, hj⟩ := hk
    have hjF : (j : Int) + 1 ≤ (⌊len x / M⌋₊ : Nat) := by
      rw [hj, hint]; exact min_le_left _ _
    have hjF' : j + 1 ≤ ⌊len x / M⌋₊ := by exact_mod_cast hjF
    have hfl : ⌊len x / M⌋₊ ≤ ⌊D / M⌋₊ := Nat.floor_le_floor (by gcongr)
    have hL : 0 < len x := lt_trans hM hlong
    have hjL : ((j + 1 : ℝ)) * M ≤ len x := by
      have := Nat.floor_le (a := len x / M) (by positivity)
      have h2 : ((j + 1 : Nat) : ℝ) ≤ (⌊len x / M⌋₊ : ℝ) := by exact_mod_cast hjF'
      have h3 : ((j + 1 : Nat) : ℝ) ≤ len x / M := h2.trans this
      rw [le_div_iff₀ hM] at h3
      push_cast at h3
      exact h3
    have hleft : left (len x) M (w.tuners i) = j + 1 := by
      unfold left
      rw [if_pos hw.tuner.queued, hw.limit.2, hj]
    obtain ⟨F', hF'⟩ : ∃ F', F' = F - (j + 1) := ⟨_, rfl⟩
    have := long_phase hP hI hi hx hs hM hmax hlong ((3 + i) * (F' + 1)) j q w E hw.world hw.active hw.tuner.on
      hw.limit hw.met hleft (by
        intro w' E' hw'
        have hc : ((j + 1 : ℝ) * (M / len x)) ≤ 1 := by
          rw [← mul_div_assoc, div_le_one hL]
          exact hjL
        refine ih F' (by omega) (len x - (j + 1) * M) _ _ w' E' ?_ hw' (hx.part _).1 ?_
        · have h1 : (len x - (j + 1) * M) / M = len x / M - ((j + 1 : Nat) : ℝ) := by
            push_cast
            field_simp
          rw [h1, Nat.floor_sub_natCast]
          omega
        · rw [len_smul, abs_of_nonneg (by linarith), sub_mul, one_mul]
          field_simp
          exact le_refl _)
    obtain ⟨L, hL', hp⟩ := this
    refine ⟨L, hL'.trans ?_, hp⟩
    have h1 : (3 + i) * (j + 1) + (3 + i) * (F' + 1) = (3 + i) * (j + 1 + (F' + 1)) := by ring
    rw [h1]
    exact Nat.mul_le_mul_left _ (by omega)
  · obtain ⟨L, hL, hp⟩ := short_phase hP hI hi hw hx (fun tuned => hs q (w.get i) E tuned
      ⟨hw.tuner.target, hw.tuner.gates, hw.tuner.index, hw.tuner.lastIndex, hw.tuner.pos, hw.tuner.values,
        hw.tuner.lastVoltage, hw.tuner.lastFailed⟩ hw.world.ests hw.world.know hw.active) (by
      intro M' hM'
      rw [hmax] at hM'
      cases hM'
      exact not_lt.1 hlong)
    refine ⟨L, hL.trans ?_, hp⟩
    calc 3 + i = (3 + i) * 1 := (mul_one _).symm
      _ ≤ (3 + i) * (F + 1) := Nat.mul_le_mul_left _ (by omega)

/-- Tuner `i` without limit. -/
theorem unlimited_phase {P : Plan n m K} (hP : P.Valid) {I : Newton.EstI X (Fin n)} {lstsq : Newton.Lstsq (Fin n)}
    (hl : Newton.LstsqSpec lstsq) {G A : Fin m → X → Prop} (hI : ∀ k, Knows P I k (G k) (A k))
    {lim : Nat → Val × Int} {i : Nat} (hi : i < K) (hmax : (lim i).1 = none) {q : Vec n} {w : Shared X n}
    {E : Fin m → X} (hw : P.Working G A lim i q w E) :
    P.PassesWithin I lstsq G lim i (3 + i) ⟨w, volts q, i, true, none⟩ := by
  obtain ⟨x, hx, -, hs⟩ := P.newton hP hl hI hi q
  exact short_phase hP hI hi hw hx (fun tuned => hs q (w.get i) E tuned
    ⟨hw.tuner.target, hw.tuner.gates, hw.tuner.index, hw.tuner.lastIndex, hw.tuner.pos, hw.tuner.values,
      hw.tuner.lastVoltage, hw.tuner.lastFailed⟩ hw.world.ests hw.world.know hw.active)
    (by rw [hmax]; simp)

/-- Tuner `i` from its first evaluation on. -/
theorem pass_tuner {P : Plan n m K} (hP : P.Valid) {I : Newton.EstI X (Fin n)} {lstsq : Newton.Lstsq (Fin n)}
    (hl : Newton.LstsqSpec lstsq) {G A : Fin m → X → Prop} (hI : ∀ k, Knows P I k (G k) (A k))
    {lim : Nat → Val × Int} {i : Nat} (hi : i < K) (hlim : Limits (lim i)) {q : Vec n} {w : Shared X n}
    (hw : P.Passed G lim i q w) :
    ∃ N, ((lim i).1 = none → N = 4 + i) ∧
      P.PassesWithin I lstsq G lim i N ⟨w, volts q, i, false, none⟩ := by
  obtain ⟨E, hE⟩ := hw.world
  have hworld : P.World G lim i w E := ⟨hE.ests, hE.know, fun j hj _ => hE.idle j hj hj.ne⟩
  obtain ⟨w₁, E₁, hw₁, ⟨hm, hcall⟩ | ⟨-, hcall⟩⟩ := evaluate_tuner hP hI (lstsq := lstsq) hi hworld
    (hE.idle i hi hi.ne) hw.met
  · exact ⟨4 + i, fun _ => rfl, 1, by omega, w₁, q, hcall, hw₁.passed hm⟩
  · have key : ∀ N, P.PassesWithin I lstsq G lim i N ⟨w₁, volts q, i, true, none⟩ →
        P.PassesWithin I lstsq G lim i (1 + N) ⟨w, volts q, i, false, none⟩ := by
      rintro N ⟨L, hL, w', q', hit, hp⟩
      refine ⟨1 + L, by omega, w', q', ?_, hp⟩
      rw [iterates_add _ 1 L _ _ hcall]
      exact hit
    rcases hlim with hnone | ⟨M, hM, hpos, hν⟩
    · have := key _ (unlimited_phase hP hl hI hi hnone hw₁)
      exact ⟨4 + i, fun _ => rfl, by rw [show 4 + i = 1 + (3 + i) by omega]; exact this⟩
    · obtain ⟨x, hx, -, -⟩ := P.newton hP hl hI hi q
      have := key _ (limited_phase hP hl hI hi hpos hM hν _ (len x) q x w₁ E₁ (le_refl _) hw₁ hx (le_refl _))
      refine ⟨_, fun h => ?_, this⟩
      rw [hM] at h
      cases h

/-- All tuners from `i` on. -/
theorem pass_all {P : Plan n m K} (hP : P.Valid) {I : Newton.EstI X (Fin n)} {lstsq : Newton.Lstsq (Fin n)}
    (hl : Newton.LstsqSpec lstsq) {G A : Fin m → X → Prop} (hI : ∀ k, Knows P I k (G k) (A k))
    {lim : Nat → Val × Int} (hlim : ∀ i < K, Limits (lim i)) :
    ∀ (d i : Nat) (_ : i + d = K) (q : Vec n) (w : Shared X n), P.Passed G lim i q w →
      ∃ N, ((∀ i < K, (lim i).1 = none) → N = ∑ l ∈ Finset.Ico i K, (4 + l)) ∧
        P.CompletesWithin I lstsq N ⟨w, volts q, i, false, none⟩ := by
  intro d
  induction d with
  | zero =>
    intro i hi q w hw
    obtain rfl : i = K := by omega
    exact ⟨0, fun _ => by simp, 0, le_refl _, _, rfl, by simp [isComplete, multiHierarchy], q, rfl, hw.met⟩
  | succ d ih =>
    intro i hi q w hw
    obtain ⟨N₁, hN₁, L₁, hL₁, w', q', hit, hp⟩ := pass_tuner hP hl hI (by omega) (hlim i (by omega)) hw
    obtain ⟨N₂, hN₂, L₂, hL₂, s', hit₂, hc⟩ := ih (i + 1) (by omega) q' w' hp
    refine ⟨N₁ + N₂, fun h => ?_, L₁ + L₂, by omega, s', ?_, hc⟩
    · rw [hN₁ (h i (by omega)), hN₂ h, Finset.sum_eq_sum_Ico_succ_bot (show i < K by omega)]
    · rw [iterates_add _ L₁ L₂ _ _ hit]
      exact hit₂

end Qtune.EndToEnd
