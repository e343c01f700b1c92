import Verif.EndToEnd.SensedRun
import Verif.EndToEnd.PropsHierarchy

/-!
# End to end: a sensing dot that is kept sensitive while the other parameters are tuned (C151)

The first tuner of the hierarchy is a `SensingDotTuner`; the evaluators of the other tuners are only
trusted where the sensing dot is sensitive.  `Sensor`, `Sensor.Valid`, `Sensor.Settles` and `Sensor.Separate` are
explained in `SensedSpec`, `Plan` in `HierarchySpec`.
-/

namespace Qtune.EndToEnd

open Matrix Qtune.Tuner Qtune.Gradient Qtune.Autotuner Qtune.Kalman

variable {n m K : Nat}

theorem sensed_completes {P : Plan n m K} (hP : P.Valid) {D : Sensor n} (hD : D.Valid) (hs : D.Separate P) {R : Nat}
    (hset : ∀ q, D.Settles R q) {outs : Nat → Volt (Fin n) → List Outcome}
    (houts : ∀ i < K, ∀ q, D.Sensitive q → outs i (volts q) = P.outs i (volts q))
    {X : Type} {I : Newton.EstI X (Fin n)}
    {lstsq : Newton.Lstsq (Fin n)} (hl : Newton.LstsqSpec lstsq) {G A : Fin m → X → Prop}
    (hI : ∀ k, Knows P I k (G k) (A k)) (c : Vec n) {w : Sensed X n} {E : Fin m → X} (hdot : D.Tuner w.dot)
    (hests : w.rest.ests = List.ofFn E) (hE : ∀ k, G k (E k)) (ht : ∀ i < K, P.Tuner i (w.rest.tuners i))
    (hlim : ∀ i < K, (w.rest.tuners i).maxStep = none ∨
      ∃ M, (w.rest.tuners i).maxStep = some M ∧ 0 < M ∧ 1 ≤ (w.rest.tuners i).maxNumber) :
    ((∀ i < K, (w.rest.tuners i).maxStep = none) →
      P.SensedWithin D outs I lstsq ((3 * R + 1) + (5 + 3 * R) * K + K * (K - 1) / 2) (fresh w (volts c))) ∧
    ∃ N, P.SensedWithin D outs I lstsq N (fresh w (volts c)) := by
  have hC : D.Context P outs R := ⟨hP, hD, hs, houts, hset⟩
  obtain ⟨M, hM, w', q', hit, hrest, hdot', hsen, -⟩ := D.settle (K := K) hD (I := I) (lstsq := lstsq) (outs := outs)
    (hset c) w hdot
  obtain ⟨N, hN, L, hL, s', hit', hc⟩ := Sensor.pass_all hC hl hI
    (lim := fun i => ((w.rest.tuners i).maxStep, (w.rest.tuners i).maxNumber))
    (fun i hi => hlim i hi) K 0 (by omega) q' w'
    ⟨⟨⟨E, by rw [hrest]; exact hests, hE, fun j hj _ => ⟨by rw [hrest]; exact ht j hj, by rw [hrest], by rw [hrest]⟩⟩,
      fun j hj => absurd hj (Nat.not_lt_zero j)⟩, hdot', hsen⟩
  have hrun : P.SensedWithin D outs I lstsq ((3 * R + 1) + N) (fresh w (volts c)) := by
    refine ⟨M + L, by omega, s', ?_, hc⟩
    rw [show (fresh w (volts c) : Autotuner.State (Sensed X n) (Volt (Fin n)) (Fin n → Option Val)) =
      ⟨w, volts c, 0, false, none⟩ from rfl, iterates_add _ M L _ _ hit]
    exact hit'
  refine ⟨fun h => ?_, _, hrun⟩
  have h1 : N = (5 + 3 * R) * K + K * (K - 1) / 2 := by
    rw [hN h, Finset.sum_add_distrib]
    simp only [Finset.sum_const, Nat.card_Ico, smul_eq_mul]
    rw [Nat.Ico_zero_eq_range, Finset.sum_range_id, Nat.sub_zero, Nat.mul_comm]
  rw [h1, ← Nat.add_assoc] at hrun
  exact hrun

/-- **C151**, Kalman estimators.  The hierarchy has a sensing dot tuner with forwarding solver at the bottom and `K`
tuners with Newton solvers above it, which share Kalman estimators that know the gradients.  The
evaluators of the other tuners report the responses of an affine device wherever the sensing dot is sensitive – and
anything elsewhere; from everywhere at most `R` adjustments make the dot sensitive; its gates are not used by the
other tuners and do not affect their parameters.  Then `iterate` never raises and the tuning is complete after
finitely many calls, without maximal step sizes after at most `3R + 1 + (5 + 3R)K + K(K - 1)/2` calls.  The dot is then
sensitive, and the voltages meet the set points of all tuners. -/
theorem sensed_hierarchy_is_tuned {P : Plan n m K} (hP : P.Valid) (hpos : ∀ y ∈ P.variances, 0 < y)
    {D : Sensor n} (hD : D.Valid) (hs : D.Separate P) {R : Nat} (hset : ∀ q, D.Settles R q)
    {outs : Nat → Volt (Fin n) → List Outcome}
    (houts : ∀ i < K, ∀ q, D.Sensitive q → outs i (volts q) = P.outs i (volts q))
    {eigh : Eigh} (heigh : EighSpec eigh) {nullspace : Nullspace} (hnull : NullspaceSpec nullspace)
    {lstsq : Newton.Lstsq (Fin n)} (hl : Newton.LstsqSpec lstsq) (c : Vec n) {w : Sensed (Est n) n} {l : ℝ}
    (hl0 : 0 < l) (hdot : D.Tuner w.dot) {E : Fin m → Est n} (hests : w.rest.ests = List.ofFn E)
    (hE : ∀ k, Certain (fun i => P.grad k i / P.scale k) l (E k) ∧
      ((E k).value = none ∨ Measured (fun v => P.response k v / P.scale k) (E k)))
    (ht : ∀ i < K, P.Tuner i (w.rest.tuners i))
    (hlim : ∀ i < K, (w.rest.tuners i).maxStep = none ∨
      ∃ M, (w.rest.tuners i).maxStep = some M ∧ 0 < M ∧ 1 ≤ (w.rest.tuners i).maxNumber) :
    ((∀ i < K, (w.rest.tuners i).maxStep = none) →
      P.SensedWithin D outs (kalmanI eigh nullspace) lstsq ((3 * R + 1) + (5 + 3 * R) * K + K * (K - 1) / 2)
        (fresh w (volts c))) ∧
    ∃ N, P.SensedWithin D outs (kalmanI eigh nullspace) lstsq N (fresh w (volts c)) :=
  sensed_completes hP hD hs hset houts hl (kalman_knows hP hpos heigh hnull hl0) c hdot hests hE ht hlim

/-- **C151**, finite difference estimators that have found the gradients. -/
theorem sensed_hierarchy_is_tuned_fd {P : Plan n m K} (hP : P.Valid)
    {D : Sensor n} (hD : D.Valid) (hs : D.Separate P) {R : Nat} (hset : ∀ q, D.Settles R q)
    {outs : Nat → Volt (Fin n) → List Outcome}
    (houts : ∀ i < K, ∀ q, D.Sensitive q → outs i (volts q) = P.outs i (volts q)) {orth : Orth n}
    {lstsq : Newton.Lstsq (Fin n)} (hl : Newton.LstsqSpec lstsq) (c : Vec n) {w : Sensed (FD n) n}
    (hdot : D.Tuner w.dot) {E : Fin m → FD n} (hests : w.rest.ests = List.ofFn E)
    (hE : ∀ k, (E k).pos ≠ none ∧ ∃ C, (E k).estimate = some (fun i => some (P.grad k i / P.scale k), C))
    (ht : ∀ i < K, P.Tuner i (w.rest.tuners i))
    (hlim : ∀ i < K, (w.rest.tuners i).maxStep = none ∨
      ∃ M, (w.rest.tuners i).maxStep = some M ∧ 0 < M ∧ 1 ≤ (w.rest.tuners i).maxNumber) :
    ((∀ i < K, (w.rest.tuners i).maxStep = none) →
      P.SensedWithin D outs (fdI orth) lstsq ((3 * R + 1) + (5 + 3 * R) * K + K * (K - 1) / 2) (fresh w (volts c))) ∧
    ∃ N, P.SensedWithin D outs (fdI orth) lstsq N (fresh w (volts c)) :=
  sensed_completes hP hD hs hset houts hl (fd_knows P orth) c hdot hests (fun k => ⟨(hE k).1, (hE k).2⟩) ht hlim

/-! ### A device that meets the hypotheses -/

/-- Gate 0 is the gate of the sensing dot, its best position is the voltage of gate 1; the signal falls
with the distance.  The cheap measurement suggests to go half of the way, the expensive one all of it. -/
noncomputable def sampleSensor : Sensor 2 where
  gateName := ![ "SD", "RF" ]
  gates := [0]
  target := [⟨"signal", none, some 2, none, none, some 1, some 1⟩, ⟨"pos", none, none, none, none, none, some 4⟩]
  mapping := [("pos", some "SD")]
  cheap := fun q => ([("signal", some (3 - |q 0 - q 1|)), ("pos", some ((q 0 + q 1) / 2))],
    [("signal", some 1), ("pos", some 1)])
  expensive := fun q => ([("pos", some (q 1))], [("pos", some 1)])
  cheapOuts := fun v => [.ok ([("signal", do let a ← v 0; let b ← v 1; pure (3 - |a - b|)),
    ("pos", do let a ← v 0; let b ← v 1; pure ((a + b) / 2))], [("signal", some 1), ("pos", some 1)])]
  expensiveOuts := fun v => [.ok ([("pos", v 1)], [("pos", some 1)])]

theorem sampleSensor_below (column : Row → Val) (y : ℝ)
    (h1 : column ⟨"signal", none, some 2, none, none, some 1, some 1⟩ = some y)
    (h2 : column ⟨"pos", none, none, none, none, none, some 4⟩ = none) (q : Vec 2) :
    SensingDot.SomeAtOrBelow sampleSensor.target column (sampleSensor.cheap q).1 ↔ 3 - |q 0 - q 1| ≤ y := by
  constructor
  · rintro ⟨l, z, r, b, ⟨x, hx, hz⟩, hr, hb, hle⟩
    simp only [sampleSensor, List.mem_cons, Prod.mk.injEq, List.not_mem_nil, or_false] at hx
    rcases hx with ⟨rfl, rfl⟩ | ⟨rfl, rfl⟩
    · have : r = ⟨"signal", none, some 2, none, none, some 1, some 1⟩ := by
        simpa [sampleSensor, Target.row?, eq_comm] using hr
      subst this
      rw [h1] at hb
      cases hb
      have hf : factor sampleSensor.target "signal" = some 1 := by simp [factor, sampleSensor, Target.row?]
      rw [hf, Val.div_some (by norm_num)] at hz
      cases hz
      linarith
    · have : r = ⟨"pos", none, none, none, none, none, some 4⟩ := by
        simpa [sampleSensor, Target.row?, eq_comm] using hr
      subst this
      rw [h2] at hb
      cases hb
  · intro h
    refine ⟨"signal", 3 - |q 0 - q 1|, ⟨"signal", none, some 2, none, none, some 1, some 1⟩, y,
      ⟨some (3 - |q 0 - q 1|), by simp [sampleSensor], ?_⟩, by simp [sampleSensor, Target.row?], h1, h⟩
    have hf : factor sampleSensor.target "signal" = some 1 := by simp [factor, sampleSensor, Target.row?]
    rw [hf, Val.div_some (by norm_num)]
    simp

theorem sampleSensor_sensitive (q : Vec 2) : sampleSensor.Sensitive q ↔ |q 0 - q 1| < 1 := by
  unfold Sensor.Sensitive
  rw [sampleSensor_below Row.minimum 2 rfl rfl]
  constructor
  · intro h; push Not at h; linarith
  · intro h h'; linarith

theorem sampleSensor_position {s : Series} {p : String} {j : Fin 2} (h : sampleSensor.Position s p j) :
    p = "pos" ∧ j = 0 := by
  obtain ⟨-, h⟩ := h
  simp only [sampleSensor, List.lookup_cons, List.lookup_nil] at h
  split at h
  · rename_i hp
    simp only [beq_iff_eq] at hp
    refine ⟨hp, ?_⟩
    fin_cases j
    · rfl
    · simp at h
  · simp at h

theorem sampleSensor_valid : sampleSensor.Valid := by
  have hf1 : TargetOps.HasFactor sampleSensor.target "signal" 1 :=
    .inl ⟨⟨"signal", none, some 2, none, none, some 1, some 1⟩, by simp [sampleSensor], rfl, rfl⟩
  have hf4 : TargetOps.HasFactor sampleSensor.target "pos" 4 :=
    .inl ⟨⟨"pos", none, none, none, none, none, some 4⟩, by simp [sampleSensor], rfl, rfl⟩
  have hpos : ∀ p g, sampleSensor.mapping.lookup p = some (some g) → ∃ j ∈ sampleSensor.gates, g = sampleSensor.gateName j := by
    intro p g h
    simp only [sampleSensor, List.lookup_cons, List.lookup_nil] at h
    split at h
    · simp at h
      exact ⟨0, by simp [sampleSensor], by simp [sampleSensor, h]⟩
    · simp at h
  refine ⟨?_, ?_, fun q => ⟨?_, ?_, ?_, ?_, ?_, fun p g _ => hpos p g, ?_⟩,
    fun q => ⟨?_, ?_, ?_, ?_, ?_, fun p g _ => hpos p g, ?_⟩⟩
  · intro a b h
    fin_cases a <;> fin_cases b <;> simp_all [sampleSensor]
  · simp [sampleSensor, Target.names]
  · simp [sampleSensor]
  · simp [sampleSensor, collect, volts]
  · simp [sampleSensor, Series.index]
  · simp [sampleSensor, Series.index]
  · intro l x h
    simp only [sampleSensor, List.mem_cons, Prod.mk.injEq, List.not_mem_nil, or_false] at h
    rcases h with ⟨rfl, rfl⟩ | ⟨rfl, rfl⟩
    · exact ⟨_, 1, rfl, by norm_num, hf1⟩
    · exact ⟨_, 4, rfl, by norm_num, hf4⟩
  · intro p p' j h h'
    rw [(sampleSensor_position h).1, (sampleSensor_position h').1]
  · simp [sampleSensor]
  · simp [sampleSensor, collect, volts]
  · simp [sampleSensor, Series.index]
  · simp [sampleSensor, Series.index]
  · intro l x h
    simp only [sampleSensor, List.mem_cons, Prod.mk.injEq, List.not_mem_nil, or_false] at h
    obtain ⟨rfl, rfl⟩ := h
    exact ⟨_, 4, rfl, by norm_num, hf4⟩
  · intro p p' j h h'
    rw [(sampleSensor_position h).1, (sampleSensor_position h').1]

/-- What an adjustment of the sample does. -/
theorem sampleSensor_adjusts {q q' : Vec 2} (h : sampleSensor.Adjusts q q') :
    q' 1 = q 1 ∧ ((3 - |q 0 - q 1| ≤ 1 → q' 0 = q 1) ∧ (1 < 3 - |q 0 - q 1| → q' 0 = (q 0 + q 1) / 2)) := by
  refine ⟨(h 1).2 fun p hp => by have := (sampleSensor_position hp).2; simp at this, fun hc => ?_, fun hc => ?_⟩
  · have hscan : sampleSensor.scan q = sampleSensor.expensive q := by
      unfold Sensor.scan
      rw [if_pos ((sampleSensor_below Row.costThreshold 1 rfl rfl q).2 hc)]
    have := (h 0).1 "pos" (q 1)
    rw [hscan] at this
    exact this ⟨by simp [sampleSensor, Series.index], by simp [sampleSensor]⟩ (by simp [sampleSensor])
  · have hscan : sampleSensor.scan q = sampleSensor.cheap q := by
      unfold Sensor.scan
      rw [if_neg (by rw [sampleSensor_below Row.costThreshold 1 rfl rfl q]; exact not_le.2 hc)]
    have := (h 0).1 "pos" ((q 0 + q 1) / 2)
    rw [hscan] at this
    exact this ⟨by simp [sampleSensor, Series.index], by simp [sampleSensor]⟩ (by simp [sampleSensor])

/-- One adjustment is enough: far away the expensive measurement is used. -/
theorem sampleSensor_settles (q : Vec 2) : sampleSensor.Settles 1 q := by
  refine .adjust fun q' h => .sensitive ?_
  rw [sampleSensor_sensitive]
  obtain ⟨h1, h2, h3⟩ := sampleSensor_adjusts h
  by_cases hc : 3 - |q 0 - q 1| ≤ 1
  · rw [h1, h2 hc]; simp
  · push Not at hc
    rw [h1, h3 hc, show (q 0 + q 1) / 2 - q 1 = (q 0 - q 1) / 2 by ring, abs_div, abs_two]
    linarith

/-- One parameter with response `2 * RF + a * SD`, tuned with the gate `RF` only. -/
noncomputable def dotPlan (a : ℝ) : Plan 2 1 1 where
  name := fun _ => "x"
  owner := fun _ => 0
  row := fun i _ => if i = 0 then ⟨"x", some 5, none, none, some (1 / 10), none, some 2⟩
    else ⟨"x", none, none, none, none, none, some 1⟩
  desired := fun _ => 5
  scale := fun _ => 2
  grad := fun _ => ![a, 2]
  offset := fun _ => 0
  gates := fun _ => [1]
  outs := fun _ v => [.ok ([("x", do let s ← v 0; let b ← v 1; pure (a * s + 2 * b))], [("x", some 1)])]
  variances := {1}

theorem dotPlan_valid (a : ℝ) : (dotPlan a).Valid where
  gates_nodup := fun i => by simp [dotPlan]
  names := fun a b _ => Subsingleton.elim a b
  row_name := fun i k => by simp [dotPlan]; split_ifs <;> rfl
  owner := fun k => Nat.zero_lt_one
  busy := fun i hi => ⟨0, by simp [dotPlan]; omega⟩
  own := fun k => by simp [dotPlan]
  other := fun i k h => by
    simp [dotPlan] at h ⊢
    rw [if_neg (fun h' => h h'.symm)]
  tolerance := fun i k tol h => by
    simp [dotPlan] at h
    split_ifs at h
    simp at h; rw [← h]; norm_num
  independent := fun i _ => by
    rw [Fintype.linearIndependent_iff]
    intro g hg k
    have h1 := congrFun hg ⟨1, by simp [dotPlan]⟩
    rw [Fin.sum_univ_one] at h1
    have h1' : g 0 * 2 = 0 := h1
    rw [Subsingleton.elim k 0]
    linarith
  evaluators := fun i hi v => by
    obtain rfl : i = 0 := by omega
    refine ⟨_, _, rfl, fun k => ⟨fun _ => ⟨?_, 1, rfl, ?_⟩, fun h => absurd rfl h⟩⟩
    · simp [dotPlan, Plan.response, Fin.sum_univ_two]
    · simp [dotPlan]

open Classical in
/-- The evaluator of the sample sees nothing where the sensing dot is not sensitive. -/
noncomputable def blindOuts (a : ℝ) (i : Nat) (v : Volt (Fin 2)) : List Outcome :=
  if ∃ q, v = volts q ∧ sampleSensor.Sensitive q then (dotPlan a).outs i v
  else [.ok ([("x", none)], [("x", none)])]

theorem blindOuts_eq (a : ℝ) : ∀ i < 1, ∀ q, sampleSensor.Sensitive q → blindOuts a i (volts q) = (dotPlan a).outs i (volts q) :=
  fun i _ q hq => by
    unfold blindOuts
    rw [if_pos ⟨q, rfl, hq⟩]

/-- The tuners of the sample. -/
noncomputable def sampleSensed (a : ℝ) : Sensed (Est 2) 2 where
  dot := ⟨⟨sampleSensor.target, sampleSensor.mapping, [("SD", none)], [("SD", none)]⟩, [], fun _ => none,
    [("pos", none), ("signal", none)], [("pos", none), ("signal", none)], false, [], true⟩
  rest := ⟨fun i => ⟨⟨(dotPlan a).target i, [], [1], fun _ => none, [("x", none)]⟩,
      [], fun _ => none, [("x", none)], [], false, [], none, 5, 0⟩, [estOf ![a / 2, 1]]⟩

/-- The hypotheses are satisfiable, and at the start neither the dot nor the parameter is tuned. -/
theorem sampleSensed_valid (a : ℝ) : (dotPlan a).Valid ∧ (∀ y ∈ (dotPlan a).variances, 0 < y) ∧ sampleSensor.Valid ∧
    (∀ q, sampleSensor.Settles 1 q) ∧
    (∀ i < 1, ∀ q, sampleSensor.Sensitive q → blindOuts a i (volts q) = (dotPlan a).outs i (volts q)) ∧
    sampleSensor.Tuner (sampleSensed a).dot ∧
    (∃ E : Fin 1 → Est 2, (sampleSensed a).rest.ests = List.ofFn E ∧
      ∀ k, Certain (fun i => (dotPlan a).grad k i / (dotPlan a).scale k) 1 (E k) ∧ (E k).value = none) ∧
    (∀ i < 1, (dotPlan a).Tuner i ((sampleSensed a).rest.tuners i)) ∧
    (∀ i < 1, ((sampleSensed a).rest.tuners i).maxStep = none) ∧
    ¬ sampleSensor.Sensitive ![80, 0] ∧ ¬ (dotPlan 0).Met 0 ![80, 0] := by
  refine ⟨dotPlan_valid a, ?_, sampleSensor_valid, sampleSensor_settles, blindOuts_eq a, ?_, ?_, ?_, ?_, ?_, ?_⟩
  · intro y hy
    rw [Set.mem_singleton_iff.1 hy]
    norm_num
  · refine ⟨rfl, rfl, by simp [sampleSensed, Series.index, sampleSensor], fun q l hl => ?_⟩
    simp [sampleSensed, Series.index, sampleSensor] at hl ⊢
    tauto
  · refine ⟨![estOf ![a / 2, 1]], by simp [sampleSensed], fun k => ?_⟩
    rw [Subsingleton.elim k 0]
    refine ⟨?_, rfl⟩
    have : (fun i => (dotPlan a).grad 0 i / (dotPlan a).scale 0) = ![a / 2, 1] := by
      funext i
      fin_cases i <;> simp [dotPlan]
    rw [this]
    exact estOf_certain _
  · intro i hi
    refine ⟨rfl, rfl, ?_, ?_, rfl⟩
    · simp [sampleSensed, Series.index, dotPlan]
    · intro l hl
      exact ⟨0, by simp [dotPlan]; omega, by simpa [sampleSensed, Series.index, dotPlan] using hl⟩
  · intro i _; rfl
  · rw [sampleSensor_sensitive]; norm_num
  · intro h
    have := h 0 (1 / 10) rfl (by simp [dotPlan])
    simp [dotPlan, Plan.response, Fin.sum_univ_two] at this
    norm_num [abs_lt] at this

theorem sampleSensor_separate : sampleSensor.Separate (dotPlan 0) := by
  refine ⟨fun i _ j hj => ?_, fun k j hj => ?_⟩
  · simp [dotPlan] at hj
    simp [sampleSensor, hj]
  · simp [sampleSensor] at hj
    subst hj
    simp [dotPlan]

example {eigh : Eigh} (heigh : EighSpec eigh) {nullspace : Nullspace} (hnull : NullspaceSpec nullspace)
    {lstsq : Newton.Lstsq (Fin 2)} (hl : Newton.LstsqSpec lstsq) :
    (dotPlan 0).SensedWithin sampleSensor (blindOuts 0) (kalmanI eigh nullspace) lstsq 12
      (fresh (sampleSensed 0) (volts ![80, 0])) := by
  obtain ⟨hP, hpos, hD, hset, houts, hdot, ⟨E, hests, hE⟩, ht, hmax, -, -⟩ := sampleSensed_valid 0
  exact (sensed_hierarchy_is_tuned hP hpos hD sampleSensor_separate hset houts heigh hnull hl ![80, 0]
    (by norm_num : (0 : ℝ) < 1) hdot hests (fun k => ⟨(hE k).1, .inl (hE k).2⟩) ht (fun i hi => .inl (hmax i hi))).1 hmax

end Qtune.EndToEnd
