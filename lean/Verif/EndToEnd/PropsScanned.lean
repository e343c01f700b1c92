import Verif.EndToEnd.ScannedSpec
import Verif.EndToEnd.PropsSensed

/-!
# C178: a sensing dot is tuned from the data of its scans

`ScannedDot` and `ScannedDot.Valid` are explained in `ScannedSpec`.
-/

namespace Qtune.EndToEnd

open Matrix Qtune.Tuner Qtune.Gradient Qtune.Autotuner Qtune.Kalman Qtune.Evaluator
open Fit (linspaceList)

variable {n m K : Nat}

theorem linspace_eq (c r : ℝ) (k : Nat) : linspaceList (c - r) (c + r) k = (List.range k).map fun j => scanPoint c r k j := by
  unfold linspaceList scanPoint
  refine List.map_congr_left fun i _ => ?_
  ring

theorem lookup_reading {g : Fin n → String} (hg : Function.Injective g) (q : Vec n) (j : Fin n) :
    (List.ofFn fun k => (g k, q k)).lookup (g j) = some (q j) := by
  induction n with
  | zero => exact j.elim0
  | succ n ih =>
    rw [List.ofFn_succ, List.lookup_cons]
    by_cases h : g j = g 0
    · rw [hg h]; simp
    · have hj : j ≠ 0 := fun e => h (by rw [e])
      obtain ⟨k, rfl⟩ := Fin.exists_succ_eq.2 hj
      rw [show (g k.succ == g 0) = false by simpa using h]
      exact ih (g := fun k => g k.succ) (fun a b e => Fin.succ_injective _ (hg e)) (fun k => q k.succ) k

theorem scanPoint_succ (c r : ℝ) (k j : Nat) : scanPoint c r k (j + 1) = scanPoint c r k j + 2 * r / (k - 1) := by
  unfold scanPoint
  push_cast
  ring

theorem ScannedDot.at_succ (D : ScannedDot n) (q : Vec n) (i j : Nat) :
    D.at q i (j + 1) = Function.update (D.at q i j) D.gate2 (D.at q i j D.gate2 + 2 * D.range / (D.points - 1)) := by
  unfold ScannedDot.at
  rw [Function.update_idem, Function.update_self, scanPoint_succ]

/-- The result of the scan: the point of the scan with the steepest flank, except for twice the error of the fits. -/
theorem ScannedDot.Valid.evaluates {D : ScannedDot n} {ε S : ℝ} (hD : D.Valid ε S) (q : Vec n) :
    ∃ i j, D.evaluateAt q = .ok
      ([("position_" ++ D.gateName D.gate1, D.at q i j D.gate1), ("position_" ++ D.gateName D.gate2, D.at q i j D.gate2)],
        [("position_" ++ D.gateName D.gate1, 1 / 10000), ("position_" ++ D.gateName D.gate2, 1 / 10000)]) ∧
      S ≤ D.flank (D.at q i j) := by
  have hl1 := lookup_reading hD.names q D.gate1
  have hl2 := lookup_reading hD.names q D.gate2
  choose! f hf hε using hD.fit q
  have hm : D.scanAt q { D.evaluator with center := some (q D.gate1, q D.gate2) } =
      .ok ⟨D.lines, D.points, fun i j => D.signal (D.at q i j)⟩ := rfl
  have hfit : Fitted D.fit (q D.gate2) D.range ⟨D.lines, D.points, fun i j => D.signal (D.at q i j)⟩ f := by
    intro i hi
    rw [linspace_eq]
    exact hf i hi
  have hret := (sensing_dot_scan_returns D.fit (.ok (D.reading q)) (.ok (D.reading q)) (D.scanAt q) D.evaluator).2
    ⟨_, _, q D.gate1, q D.gate2, _, f, rfl, rfl, hl1, hl2, hm, hD.lines, hD.points, hfit⟩
  obtain ⟨⟨values, errors⟩, hout⟩ := hret
  obtain ⟨c1, c2, g, curves, i, j, h1, h2, h3, h4, h5, h6, h7, h8, -, -, h9, -⟩ :=
    sensing_dot_scan_position D.fit (D.reading q) (D.reading q) (D.scanAt q) D.evaluator _ values errors (Prod.ext rfl hout)
  have e1 : c1 = q D.gate1 := Option.some.inj (h1.symm.trans hl1)
  have e2 : c2 = q D.gate2 := Option.some.inj (h2.symm.trans hl2)
  subst e1 e2
  rw [hm, Except.ok.injEq] at h3
  subst h3
  have hcurve : ∀ i < D.lines, curves i = f i := by
    intro i hi
    have := (h4 i hi).symm.trans (hfit i hi)
    exact Except.ok.inj this
  have ha : ∀ i j, D.at q i j D.gate1 = scanPoint (q D.gate1) D.range D.lines i := by
    intro i j
    unfold ScannedDot.at
    rw [Function.update_of_ne hD.gates, Function.update_self]
  have hb : ∀ i j, D.at q i j D.gate2 = scanPoint (q D.gate2) D.range D.points j := by
    intro i j
    unfold ScannedDot.at
    rw [Function.update_self]
  refine ⟨i, j, ?_, ?_⟩
  · rw [ha, hb]
    show (D.evaluator.evaluate D.fit (.ok (D.reading q)) (.ok (D.reading q)) (D.scanAt q)).2 = _
    rw [hout, h7, h8]
    rfl
  · obtain ⟨i', hi', j', hj', hS⟩ := hD.visible q
    have hbest := h9 i' hi' j' hj'
    have hp := hD.points
    have hinc : ∀ i < D.lines, ∀ j, InnerOfLine D.points j →
        |increase (f i) (q D.gate2) D.range D.points j - (D.signal (D.at q i (j + 1)) - D.signal (D.at q i j))| ≤ 2 * ε := by
      intro i hi j hj
      have hj2 := hj.2
      have a1 := hε i hi j (by omega)
      have a2 := hε i hi (j + 1) (by omega)
      have e : increase (f i) (q D.gate2) D.range D.points j =
          f i (scanPoint (q D.gate2) D.range D.points (j + 1)) - f i (scanPoint (q D.gate2) D.range D.points j) := by
        unfold increase scanPoint
        push_cast
        rfl
      rw [e]
      rw [abs_le] at a1 a2 ⊢
      constructor <;> linarith [a1.1, a1.2, a2.1, a2.2]
    have b1 := hinc i h5 j h6
    have b2 := hinc i' hi' j' hj'
    rw [hcurve i h5, hcurve i' hi'] at hbest
    unfold ScannedDot.flank at hS ⊢
    rw [← D.at_succ] at hS ⊢
    rw [abs_le] at b1 b2
    have hr : D.evaluator.risingFlank = D.rising := rfl
    have hrg : D.evaluator.range = D.range := rfl
    rw [hr, hrg] at hbest
    simp only at hbest
    cases hrise : D.rising with
    | true =>
      rw [hrise] at hbest hS
      simp only [Better, Bool.not_true, Bool.false_eq_true, if_false] at hbest
      simp only [if_true] at hS ⊢
      linarith [b1.1, b1.2, b2.1, b2.2]
    | false =>
      rw [hrise] at hbest hS
      simp only [Better, Bool.not_false, if_true] at hbest
      simp only [Bool.false_eq_true, if_false] at hS ⊢
      linarith [b1.1, b1.2, b2.1, b2.2]

theorem ScannedDot.below {D : ScannedDot n} {column : Row → Val} {y : ℝ}
    (h : column ⟨D.contrastName, none, some D.minimum, none, none, some D.costThreshold, some 1⟩ = some y) (q : Vec n) :
    SensingDot.SomeAtOrBelow D.sensor.target column (D.sensor.cheap q).1 ↔ D.contrast q ≤ y := by
  have hrow : D.sensor.target.row? D.contrastName =
      some ⟨D.contrastName, none, some D.minimum, none, none, some D.costThreshold, some 1⟩ := by
    simp [ScannedDot.sensor, Target.row?]
  have hf : factor D.sensor.target D.contrastName = some 1 := by
    unfold factor
    rw [hrow]
  constructor
  · rintro ⟨l, z, r, b, ⟨x, hx, hz⟩, hr, hb, hle⟩
    simp only [ScannedDot.sensor, List.mem_cons, Prod.mk.injEq, List.not_mem_nil, or_false] at hx
    obtain ⟨rfl, rfl⟩ := hx
    rw [hrow] at hr
    cases hr
    rw [h] at hb
    cases hb
    rw [hf, Val.div_some (by norm_num)] at hz
    cases hz
    linarith
  · intro hle
    refine ⟨D.contrastName, D.contrast q, _, y, ⟨some (D.contrast q), by simp [ScannedDot.sensor], ?_⟩, hrow, h, hle⟩
    rw [hf, Val.div_some (by norm_num)]
    simp

/-- The dot is sensitive exactly if the contrast is above the minimum. -/
theorem ScannedDot.sensitive_iff (D : ScannedDot n) (q : Vec n) : D.sensor.Sensitive q ↔ D.minimum < D.contrast q := by
  unfold Sensor.Sensitive
  rw [D.below (column := Row.minimum) rfl, not_le]

theorem ScannedDot.Valid.names_ne {D : ScannedDot n} {ε S : ℝ} (hD : D.Valid ε S) :
    "position_" ++ D.gateName D.gate1 ≠ "position_" ++ D.gateName D.gate2 := fun h =>
  hD.gates (hD.names ((String.append_right_inj _).1 h))

theorem ScannedDot.mapping_lookup {D : ScannedDot n} {p g : String}
    (h : D.sensor.mapping.lookup p = some (some g)) :
    p = "position_" ++ D.gateName D.gate1 ∧ g = D.gateName D.gate1 ∨
      p = "position_" ++ D.gateName D.gate2 ∧ g = D.gateName D.gate2 := by
  simp only [ScannedDot.sensor, List.lookup_cons, List.lookup_nil] at h
  split at h
  · rename_i hp
    exact .inl ⟨by simpa using hp, by simpa using h.symm⟩
  · split at h
    · rename_i hp
      exact .inr ⟨by simpa using hp, by simpa using h.symm⟩
    · cases h

theorem ScannedDot.Valid.position_unique {D : ScannedDot n} {ε S : ℝ} (hD : D.Valid ε S) {s s' : Series} {p p' : String} {j : Fin n}
    (h : D.sensor.Position s p j) (h' : D.sensor.Position s' p' j) : p = p' := by
  have inj : ∀ {a b : Fin n}, D.sensor.gateName a = D.gateName b → a = b := fun e => hD.names e
  rcases ScannedDot.mapping_lookup h.2 with ⟨e, g⟩ | ⟨e, g⟩ <;> rcases ScannedDot.mapping_lookup h'.2 with ⟨e', g'⟩ | ⟨e', g'⟩
  · rw [e, e']
  · exact absurd ((inj g).symm.trans (inj g')) hD.gates
  · exact absurd ((inj g').symm.trans (inj g)) hD.gates
  · rw [e, e']

theorem ScannedDot.Valid.sensor_valid {D : ScannedDot n} {ε S : ℝ} (hD : D.Valid ε S) : D.sensor.Valid := by
  have hmap : ∀ p g, D.sensor.mapping.lookup p = some (some g) → ∃ j ∈ D.sensor.gates, g = D.sensor.gateName j := by
    intro p g h
    rcases ScannedDot.mapping_lookup h with ⟨-, h⟩ | ⟨-, h⟩
    · exact ⟨D.gate1, by simp [ScannedDot.sensor], h⟩
    · exact ⟨D.gate2, by simp [ScannedDot.sensor], h⟩
  refine ⟨hD.names, by simp [ScannedDot.sensor, Target.names], fun q => ?_, fun q => ?_⟩
  · refine ⟨by simp [ScannedDot.sensor], by simp [ScannedDot.sensor, collect, volts], by simp [ScannedDot.sensor, Series.index],
      by simp [ScannedDot.sensor, Series.index], fun l x h => ?_, fun p g _ => hmap p g, fun p p' j => hD.position_unique⟩
    simp only [ScannedDot.sensor, List.mem_cons, Prod.mk.injEq, List.not_mem_nil, or_false] at h
    obtain ⟨rfl, rfl⟩ := h
    exact ⟨_, 1, rfl, one_ne_zero, .inl ⟨_, List.mem_cons_self, rfl, rfl⟩⟩
  · obtain ⟨i, j, he, -⟩ := hD.evaluates q
    have hq : (fun j => ((volts q j).getD 0 : ℝ)) = q := rfl
    have hexp : D.sensor.expensive q =
        ([("position_" ++ D.gateName D.gate1, some (D.at q i j D.gate1)), ("position_" ++ D.gateName D.gate2, some (D.at q i j D.gate2))],
        [("position_" ++ D.gateName D.gate1, some (1 / 10000)), ("position_" ++ D.gateName D.gate2, some (1 / 10000))]) := by
      simp only [ScannedDot.sensor, he]
      rfl
    have houts : D.sensor.expensiveOuts (volts q) = [.ok (D.sensor.expensive q)] := by
      rw [hexp]
      simp only [ScannedDot.sensor, hq, he]
      rfl
    rw [houts]
    refine ⟨by simp, by simp [collect], ?_, ?_, fun l x h => ?_, fun p g _ => hmap p g, fun p p' j => hD.position_unique⟩
    · rw [hexp]
      simpa [Series.index] using hD.names_ne
    · rw [hexp]
      simp [Series.index]
    · rw [hexp] at h
      simp only [List.mem_cons, Prod.mk.injEq, List.not_mem_nil, or_false] at h
      rcases h with ⟨rfl, rfl⟩ | ⟨rfl, rfl⟩
      · exact ⟨_, 1, rfl, one_ne_zero, .inr ⟨by simpa [ScannedDot.sensor] using hD.contrastName.1, rfl⟩⟩
      · exact ⟨_, 1, rfl, one_ne_zero, .inr ⟨by simpa [ScannedDot.sensor] using hD.contrastName.2, rfl⟩⟩

/-- **C178**: one scan is enough.  If the contrast is too small, the tuner scans, and at the voltages that it then
suggests the contrast is above the minimum. -/
theorem scanned_dot_settles {D : ScannedDot n} {ε S : ℝ} (hD : D.Valid ε S) (q : Vec n) : D.sensor.Settles 1 q := by
  by_cases hs : D.sensor.Sensitive q
  · exact .sensitive hs
  refine .adjust fun q' h => .sensitive ?_
  rw [D.sensitive_iff] at hs ⊢
  obtain ⟨i, j, he, hflank⟩ := hD.evaluates q
  have hscan : D.sensor.scan q =
      ([("position_" ++ D.gateName D.gate1, some (D.at q i j D.gate1)), ("position_" ++ D.gateName D.gate2, some (D.at q i j D.gate2))],
        [("position_" ++ D.gateName D.gate1, some (1 / 10000)), ("position_" ++ D.gateName D.gate2, some (1 / 10000))]) := by
    unfold Sensor.scan
    rw [if_pos ((D.below (column := Row.costThreshold) rfl q).2 ((not_lt.1 hs).trans hD.threshold))]
    simp only [ScannedDot.sensor, he]
    rfl
  have hq' : q' = D.at q i j := by
    funext k
    have hk := h k
    rw [hscan] at hk
    by_cases h1 : k = D.gate1
    · subst h1
      exact hk.1 ("position_" ++ D.gateName D.gate1) _ ⟨by simp [Series.index], by simp [ScannedDot.sensor]⟩ (by simp)
    · by_cases h2 : k = D.gate2
      · subst h2
        refine hk.1 ("position_" ++ D.gateName D.gate2) _ ⟨by simp [Series.index], ?_⟩ (by simp)
        simp only [ScannedDot.sensor, List.lookup_cons]
        rw [show ("position_" ++ D.gateName D.gate2 == "position_" ++ D.gateName D.gate1) = false by
          simpa using hD.names_ne.symm]
        simp
      · rw [hk.2 fun p hp => by
          rcases ScannedDot.mapping_lookup hp.2 with ⟨-, g⟩ | ⟨-, g⟩
          · exact h1 (hD.names g)
          · exact h2 (hD.names g)]
        unfold ScannedDot.at
        rw [Function.update_of_ne h2, Function.update_of_ne h1]
  rw [hq']
  exact hD.steep _ hflank

/-- The tuning is complete within `N` calls; the contrast is then above its minimum and the voltages meet the set points of
all other tuners. -/
def ScannedDot.TunedWithin {X : Type} (D : ScannedDot n) (P : Plan n m K) (outs : Nat → Volt (Fin n) → List Outcome)
    (I : Newton.EstI X (Fin n)) (lstsq : Newton.Lstsq (Fin n)) (N : Nat)
    (s : Autotuner.State (Sensed X n) (Volt (Fin n)) (Fin n → Option Val)) : Prop :=
  ∃ M ≤ N, ∃ s', iterates (sensedHierarchy D.gateName D.sensor.cheapOuts D.sensor.expensiveOuts I lstsq K outs) M s = .ok s' ∧
    isComplete (sensedHierarchy D.gateName D.sensor.cheapOuts D.sensor.expensiveOuts I lstsq K outs) s' = true ∧
    ∃ q : Vec n, s'.expt = volts q ∧ D.minimum < D.contrast q ∧ ∀ i < K, P.Met i q

/-- **C178**, Kalman estimators.  The hierarchy has a `SensingDotTuner` with forwarding solver at the bottom, whose expensive
evaluator is a `SensingDot2D`, and `K` tuners with Newton solvers above it, which share Kalman estimators that know the
gradients.  The evaluators of the other tuners report the responses of an affine device wherever the contrast is above its
minimum – and anything elsewhere.  Then `iterate` never raises and the tuning is complete after finitely many calls, without
maximal step sizes after at most `4 + 8K + K(K - 1)/2` calls; the contrast is then above its minimum, and the voltages meet
the set points of all tuners. -/
theorem scanned_dot_is_tuned {P : Plan n m K} (hP : P.Valid) (hpos : ∀ y ∈ P.variances, 0 < y)
    {D : ScannedDot n} {ε S : ℝ} (hD : D.Valid ε S) (hunused : ∀ i < K, D.gate1 ∉ P.gates i ∧ D.gate2 ∉ P.gates i)
    (hgrad : ∀ k, P.grad k D.gate1 = 0 ∧ P.grad k D.gate2 = 0)
    {outs : Nat → Volt (Fin n) → List Outcome}
    (houts : ∀ i < K, ∀ q, D.minimum < D.contrast q → outs i (volts q) = P.outs i (volts q))
    {eigh : Eigh} (heigh : EighSpec eigh) {nullspace : Nullspace} (hnull : NullspaceSpec nullspace)
    {lstsq : Newton.Lstsq (Fin n)} (hl : Newton.LstsqSpec lstsq) (c : Vec n) {w : Sensed (Est n) n} {l : ℝ}
    (hl0 : 0 < l) (hdot : D.sensor.Tuner w.dot) {E : Fin m → Est n} (hests : w.rest.ests = List.ofFn E)
    (hE : ∀ k, Certain (fun i => P.grad k i / P.scale k) l (E k) ∧
      ((E k).value = none ∨ Measured (fun v => P.response k v / P.scale k) (E k)))
    (ht : ∀ i < K, P.Tuner i (w.rest.tuners i))
    (hlim : ∀ i < K, (w.rest.tuners i).maxStep = none ∨
      ∃ M, (w.rest.tuners i).maxStep = some M ∧ 0 < M ∧ 1 ≤ (w.rest.tuners i).maxNumber) :
    ((∀ i < K, (w.rest.tuners i).maxStep = none) →
      D.TunedWithin P outs (kalmanI eigh nullspace) lstsq (4 + 8 * K + K * (K - 1) / 2) (fresh w (volts c))) ∧
    ∃ N, D.TunedWithin P outs (kalmanI eigh nullspace) lstsq N (fresh w (volts c)) := by
  have hsep : D.sensor.Separate P := by
    refine ⟨fun i hi j hj hmem => ?_, fun k j hj => ?_⟩
    · simp only [ScannedDot.sensor, List.mem_cons, List.not_mem_nil, or_false] at hmem
      rcases hmem with rfl | rfl
      · exact (hunused i hi).1 hj
      · exact (hunused i hi).2 hj
    · simp only [ScannedDot.sensor, List.mem_cons, List.not_mem_nil, or_false] at hj
      rcases hj with rfl | rfl
      · exact (hgrad k).1
      · exact (hgrad k).2
  have hconv : ∀ N, P.SensedWithin D.sensor outs (kalmanI eigh nullspace) lstsq N (fresh w (volts c)) →
      D.TunedWithin P outs (kalmanI eigh nullspace) lstsq N (fresh w (volts c)) := by
    rintro N ⟨M, hM, s', h1, h2, q, h3, h4, h5⟩
    exact ⟨M, hM, s', h1, h2, q, h3, (D.sensitive_iff q).1 h4, h5⟩
  obtain ⟨h1, N, h2⟩ := sensed_hierarchy_is_tuned hP hpos hD.sensor_valid hsep (scanned_dot_settles hD)
    (fun i hi q hq => houts i hi q ((D.sensitive_iff q).1 hq)) heigh hnull hl c hl0 hdot hests hE ht hlim
  exact ⟨fun h => hconv _ (h1 h), N, hconv N h2⟩

/-! ### A device that meets the hypotheses -/

/-- Gates 0 and 1 belong to the sensing dot.  The signal falls along gate 1, and the steeper, the larger the fractional part of
the voltage of gate 0 is, which is the contrast.  Straight lines are fitted through the first two points. -/
noncomputable def sampleScanned : ScannedDot 3 where
  gateName := ![ "SDB1", "SDB2", "RF" ]
  gate1 := 0
  gate2 := 1
  signal := fun q => -(q 1) * Int.fract (q 0)
  contrastName := "current_signal"
  contrast := fun q => Int.fract (q 0)
  minimum := 1 / 4
  costThreshold := 1 / 4
  range := 1 / 4
  lines := 2
  points := 25
  rising := true
  fit := fun xs ys => .ok fun x => ys.getD 0 0 + (x - xs.getD 0 0) * ((ys.getD 1 0 - ys.getD 0 0) / (xs.getD 1 0 - xs.getD 0 0))

theorem fract_half (x : ℝ) : 1 / 2 ≤ Int.fract x ∨ 1 / 2 ≤ Int.fract (x + 1 / 2) := by
  by_cases h : 1 / 2 ≤ Int.fract x
  · exact .inl h
  · right
    push Not at h
    have h0 := Int.fract_nonneg x
    have : Int.fract (x + 1 / 2) = Int.fract x + 1 / 2 := by
      rw [Int.fract_eq_iff]
      refine ⟨by linarith, by linarith, ⌊x⌋, ?_⟩
      rw [← Int.self_sub_floor]
      ring
    linarith

theorem sampleScanned_at (q : Vec 3) (i j : Nat) :
    sampleScanned.at q i j 0 = scanPoint (q 0) (1 / 4) 2 i ∧ sampleScanned.at q i j 1 = scanPoint (q 1) (1 / 4) 25 j := by
  constructor <;> simp [ScannedDot.at, sampleScanned]

theorem sampleScanned_flank (q : Vec 3) : sampleScanned.flank q = Int.fract (q 0) / 48 := by
  simp [ScannedDot.flank, sampleScanned]
  ring

theorem sampleScanned_valid : sampleScanned.Valid 0 (1 / 96) where
  names := by
    intro a b h
    fin_cases a <;> fin_cases b <;> simp_all [sampleScanned]
  gates := by simp [sampleScanned]
  contrastName := by simp [sampleScanned]
  threshold := le_refl _
  lines := le_refl _
  points := le_refl _
  fit := by
    intro q i hi
    refine ⟨_, rfl, fun j hj => ?_⟩
    have hsig : ∀ j, sampleScanned.signal (sampleScanned.at q i j) =
        -(scanPoint (q 1) (1 / 4) 25 j) * Int.fract (scanPoint (q 0) (1 / 4) 2 i) := by
      intro j
      show -(sampleScanned.at q i j 1) * Int.fract (sampleScanned.at q i j 0) = _
      rw [(sampleScanned_at q i j).1, (sampleScanned_at q i j).2]
    have hg : ∀ (h : Nat → ℝ), ∀ k < 25, ((List.range sampleScanned.points).map h).getD k 0 = h k := by
      intro h k hk
      have : sampleScanned.points = 25 := rfl
      rw [this, List.getD_eq_getElem _ _ (by simpa using hk)]
      simp
    rw [hg _ 0 (by norm_num), hg _ 1 (by norm_num), hg _ 0 (by norm_num), hg _ 1 (by norm_num), hsig, hsig, hsig]
    have hp : ∀ j, scanPoint (q sampleScanned.gate2) sampleScanned.range sampleScanned.points j = scanPoint (q 1) (1 / 4) 25 j :=
      fun _ => rfl
    rw [hp, hp, hp]
    have h1 : ∀ k : Nat, scanPoint (q 1) (1 / 4) 25 k = q 1 - 1 / 4 + k / 48 := by
      intro k
      unfold scanPoint
      norm_num
      ring
    rw [h1, h1, h1, abs_nonpos_iff]
    push_cast
    ring
  steep := by
    intro q h
    rw [sampleScanned_flank] at h
    show (1 / 4 : ℝ) < Int.fract (q 0)
    linarith
  visible := by
    intro q
    have h0 : ∀ i : Nat, scanPoint (q 0) (1 / 4) 2 i = q 0 - 1 / 4 + i / 2 := by
      intro i
      unfold scanPoint
      norm_num
      ring
    have hin : InnerOfLine sampleScanned.points 1 := by
      constructor <;> norm_num [sampleScanned]
    rcases fract_half (q 0 - 1 / 4) with h | h
    · refine ⟨0, by norm_num [sampleScanned], 1, hin, ?_⟩
      rw [sampleScanned_flank, (sampleScanned_at q 0 1).1, h0]
      norm_num at h ⊢
      linarith
    · refine ⟨1, by norm_num [sampleScanned], 1, hin, ?_⟩
      rw [sampleScanned_flank, (sampleScanned_at q 1 1).1, h0]
      norm_num at h ⊢
      linarith

/-- One parameter with response `2 * RF`, tuned with the gate `RF`. -/
noncomputable def scannedPlan : Plan 3 1 1 where
  name := fun _ => "x"
  owner := fun _ => 0
  row := fun i _ => if i = 0 then ⟨"x", some 5, none, none, some (1 / 10), none, some 2⟩
    else ⟨"x", none, none, none, none, none, some 1⟩
  desired := fun _ => 5
  scale := fun _ => 2
  grad := fun _ => ![0, 0, 2]
  offset := fun _ => 0
  gates := fun _ => [2]
  outs := fun _ v => [.ok ([("x", do let b ← v 2; pure (2 * b))], [("x", some 1)])]
  variances := {1}

theorem scannedPlan_valid : scannedPlan.Valid where
  gates_nodup := fun i => by simp [scannedPlan]
  names := fun a b _ => Subsingleton.elim a b
  row_name := fun i k => by simp [scannedPlan]; split_ifs <;> rfl
  owner := fun k => Nat.zero_lt_one
  busy := fun i hi => ⟨0, by simp [scannedPlan]; omega⟩
  own := fun k => by simp [scannedPlan]
  other := fun i k h => by
    simp [scannedPlan] at h ⊢
    rw [if_neg (fun h' => h h'.symm)]
  tolerance := fun i k tol h => by
    simp [scannedPlan] at h
    split_ifs at h
    simp at h; rw [← h]; norm_num
  independent := fun i _ => by
    rw [Fintype.linearIndependent_iff]
    intro g hg k
    have h1 := congrFun hg ⟨2, by simp [scannedPlan]⟩
    rw [Fin.sum_univ_one] at h1
    have h1' : g 0 * 2 = 0 := h1
    rw [Subsingleton.elim k 0]
    linarith
  evaluators := fun i hi v => by
    obtain rfl : i = 0 := by omega
    refine ⟨_, _, rfl, fun k => ⟨fun _ => ⟨?_, 1, rfl, ?_⟩, fun h => absurd rfl h⟩⟩
    · simp [scannedPlan, Plan.response, Fin.sum_univ_three]
    · simp [scannedPlan]

/-- Estimator for three gates with the given gradient, variance 1/2 in all directions and limit 1. -/
noncomputable def estOfThree (g : Vec 3) : Est 3 :=
  ⟨KG.new none (some g) (some ((1 / 2 : ℝ) • 1)) none none 1, fun _ => none, none, fun _ => .fin 1, fun _ => 3⟩

theorem estOfThree_certain (g : Vec 3) : Certain g 1 (estOfThree g) := by
  refine ⟨⟨rfl, rfl, rfl⟩, ?_, ?_, rfl, ?_⟩
  · funext i
    fin_cases i <;> simp [estOfThree, Est.estimate, KG.grad, KG.new]
  · exact PosSemidef.one.smul (by norm_num)
  · intro v hv
    have h : variance (estOfThree g).cov v = 1 / 2 * ∑ i, v i ^ 2 := by
      simp [variance, Est.cov, estOfThree, KG.new, Fin.sum_univ_three, one_apply]
      ring
    rw [h, hv]
    norm_num

/-- The tuners of the sample. -/
noncomputable def sampleScannedTuners : Sensed (Est 3) 3 where
  dot := ⟨⟨sampleScanned.sensor.target, sampleScanned.sensor.mapping, [("SDB1", none), ("SDB2", none)], [("SDB1", none), ("SDB2", none)]⟩,
    [], fun _ => none, [("current_signal", none), ("position_SDB1", none), ("position_SDB2", none)],
    [("current_signal", none), ("position_SDB1", none), ("position_SDB2", none)], false, [], true⟩
  rest := ⟨fun i => ⟨⟨scannedPlan.target i, [], [2], fun _ => none, [("x", none)]⟩,
      [], fun _ => none, [("x", none)], [], false, [], none, 5, 0⟩, [estOfThree ![0, 0, 1]]⟩

open Classical in
/-- The evaluator of the other parameter sees nothing where the contrast is too small. -/
noncomputable def scannedOuts (i : Nat) (v : Volt (Fin 3)) : List Outcome :=
  if ∃ q, v = volts q ∧ sampleScanned.minimum < sampleScanned.contrast q then scannedPlan.outs i v
  else [.ok ([("x", none)], [("x", none)])]

/-- The hypotheses are satisfiable: the sample is tuned from a point without contrast, with two scans at most. -/
example {eigh : Eigh} (heigh : EighSpec eigh) {nullspace : Nullspace} (hnull : NullspaceSpec nullspace)
    {lstsq : Newton.Lstsq (Fin 3)} (hl : Newton.LstsqSpec lstsq) :
    sampleScanned.contrast ![7, 1, 0] < sampleScanned.minimum ∧
    sampleScanned.TunedWithin scannedPlan scannedOuts (kalmanI eigh nullspace) lstsq 12
      (fresh sampleScannedTuners (volts ![7, 1, 0])) := by
  refine ⟨?_, (scanned_dot_is_tuned (E := ![estOfThree ![0, 0, 1]]) scannedPlan_valid ?_ sampleScanned_valid ?_ ?_ ?_ heigh hnull hl ![7, 1, 0]
    (by norm_num : (0 : ℝ) < 1) ?_ (by simp [sampleScannedTuners]) ?_ ?_ (fun i _ => .inl rfl)).1 fun i _ => rfl⟩
  · simp [sampleScanned]
  · intro y hy
    rw [Set.mem_singleton_iff.1 hy]
    norm_num
  · intro i _
    simp [sampleScanned, scannedPlan]
  · intro k
    simp [sampleScanned, scannedPlan]
  · intro i _ q hq
    unfold scannedOuts
    rw [if_pos ⟨q, rfl, hq⟩]
  · refine ⟨rfl, rfl, by simp [sampleScannedTuners, Series.index, sampleScanned, ScannedDot.sensor], fun q l hl => ?_⟩
    obtain ⟨i, j, he, -⟩ := sampleScanned_valid.evaluates q
    simp only [ScannedDot.sensor, he] at hl
    simp [sampleScannedTuners, Series.index, sampleScanned, asSeries] at hl ⊢
    tauto
  · intro k
    rw [Subsingleton.elim k 0]
    refine ⟨?_, .inl rfl⟩
    have : (fun i => scannedPlan.grad 0 i / scannedPlan.scale 0) = ![0, 0, 1] := by
      funext i
      fin_cases i <;> simp [scannedPlan]
    rw [this]
    exact estOfThree_certain _
  · intro i hi
    refine ⟨rfl, rfl, ?_, ?_, rfl⟩
    · simp [sampleScannedTuners, Series.index, scannedPlan]
    · intro l hl
      exact ⟨0, by simp [scannedPlan]; omega, by simpa [sampleScannedTuners, Series.index, scannedPlan] using hl⟩

end Qtune.EndToEnd
