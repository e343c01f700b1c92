import Verif.EndToEnd.PropsScanned

/-!
# End to end: a sensing dot that is tuned from its scans, finite difference estimators
-/

namespace Qtune.EndToEnd

open Qtune.Tuner Qtune.Gradient Qtune.Autotuner

variable {n m K : Nat}

/-- **C178**, finite difference estimators that have found the gradients; everything else is as in `scanned_dot_is_tuned`. -/
theorem scanned_dot_is_tuned_fd {P : Plan n m K} (hP : P.Valid)
    {D : ScannedDot n} {ε S : ℝ} (hD : D.Valid ε S) (hunused : ∀ i < K, D.gate1 ∉ P.gates i ∧ D.gate2 ∉ P.gates i)
    (hgrad : ∀ k, P.grad k D.gate1 = 0 ∧ P.grad k D.gate2 = 0)
    {outs : Nat → Volt (Fin n) → List Outcome}
    (houts : ∀ i < K, ∀ q, D.minimum < D.contrast q → outs i (volts q) = P.outs i (volts q)) {orth : Orth n}
    {lstsq : Newton.Lstsq (Fin n)} (hl : Newton.LstsqSpec lstsq) (c : Vec n) {w : Sensed (FD n) n}
    (hdot : D.sensor.Tuner w.dot) {E : Fin m → FD n} (hests : w.rest.ests = List.ofFn E)
    (hE : ∀ k, (E k).pos ≠ none ∧ ∃ C, (E k).estimate = some (fun i => some (P.grad k i / P.scale k), C))
    (ht : ∀ i < K, P.Tuner i (w.rest.tuners i))
    (hlim : ∀ i < K, (w.rest.tuners i).maxStep = none ∨
      ∃ M, (w.rest.tuners i).maxStep = some M ∧ 0 < M ∧ 1 ≤ (w.rest.tuners i).maxNumber) :
    ((∀ i < K, (w.rest.tuners i).maxStep = none) →
      D.TunedWithin P outs (fdI orth) lstsq (4 + 8 * K + K * (K - 1) / 2) (fresh w (volts c))) ∧
    ∃ N, D.TunedWithin P outs (fdI orth) lstsq N (fresh w (volts c)) := by
  have hsep : D.sensor.Separate P := by
    refine ⟨fun i hi j hj hmem => ?_, fun k j hj => ?_⟩
    · simp only [ScannedDot.sensor, List.mem_cons, List.not_mem_nil, or_false] at hmem
      rcases hmem with rfl | rfl
      · exact (hunused i hi).1 hj
      · exact (hunused i hi).2 hj
    · simp only [ScannedDot.sensor, List.mem_cons, List.not_mem_nil, or_false] at hj
      rcases hj with rfl | rfl
      · exact (hgrad k).1
      · exact (hgrad k).2
  have hconv : ∀ N, P.SensedWithin D.sensor outs (fdI orth) lstsq N (fresh w (volts c)) →
      D.TunedWithin P outs (fdI orth) lstsq N (fresh w (volts c)) := by
    rintro N ⟨M, hM, s', h1, h2, q, h3, h4, h5⟩
    exact ⟨M, hM, s', h1, h2, q, h3, (D.sensitive_iff q).1 h4, h5⟩
  obtain ⟨h1, N, h2⟩ := sensed_hierarchy_is_tuned_fd (orth := orth) hP hD.sensor_valid hsep (scanned_dot_settles hD)
    (fun i hi q hq => houts i hi q ((D.sensitive_iff q).1 hq)) hl c hdot hests hE ht hlim
  exact ⟨fun h => hconv _ (h1 h), N, hconv N h2⟩

/-! ### A device that meets the hypotheses -/

/-- An estimator that has found the gradient of the sample. -/
noncomputable def foundThree : FD 3 :=
  { FD.new (some ![0, 0, 0]) (fun _ => 1) false with estimate := some (fun i => some ((![0, 0, 1] : Vec 3) i), none) }

/-- The tuners of the sample. -/
noncomputable def sampleScannedTunersFD : Sensed (FD 3) 3 where
  dot := sampleScannedTuners.dot
  rest := ⟨fun i => ⟨⟨scannedPlan.target i, [], [2], fun _ => none, [("x", none)]⟩,
      [], fun _ => none, [("x", none)], [], false, [], none, 5, 0⟩, [foundThree]⟩

/-- The hypotheses are satisfiable: the sample is tuned from a point without contrast. -/
example {orth : Orth 3} {lstsq : Newton.Lstsq (Fin 3)} (hl : Newton.LstsqSpec lstsq) :
    sampleScanned.contrast ![7, 1, 0] < sampleScanned.minimum ∧
    sampleScanned.TunedWithin scannedPlan scannedOuts (fdI orth) lstsq 12 (fresh sampleScannedTunersFD (volts ![7, 1, 0])) := by
  refine ⟨?_, (scanned_dot_is_tuned_fd (E := ![foundThree]) scannedPlan_valid sampleScanned_valid ?_ ?_ ?_ hl ![7, 1, 0]
    ?_ (by simp [sampleScannedTunersFD]) ?_ ?_ (fun i _ => .inl rfl)).1 fun i _ => rfl⟩
  · simp [sampleScanned]
  · intro i _
    simp [sampleScanned, scannedPlan]
  · intro k
    simp [sampleScanned, scannedPlan]
  · intro i _ q hq
    unfold scannedOuts
    rw [if_pos ⟨q, rfl, hq⟩]
  · refine ⟨rfl, rfl, by simp [sampleScannedTunersFD, sampleScannedTuners, Series.index, sampleScanned, ScannedDot.sensor], fun q l hl => ?_⟩
    obtain ⟨i, j, he, -⟩ := sampleScanned_valid.evaluates q
    simp only [ScannedDot.sensor, he] at hl
    simp [sampleScannedTunersFD, sampleScannedTuners, Series.index, sampleScanned, asSeries] at hl ⊢
    tauto
  · intro k
    rw [Subsingleton.elim k 0]
    refine ⟨by simp [foundThree, FD.new], none, ?_⟩
    have : (fun i => scannedPlan.grad 0 i / scannedPlan.scale 0) = ![0, 0, 1] := by
      funext i
      fin_cases i <;> simp [scannedPlan]
    have h : ∀ i, scannedPlan.grad 0 i / scannedPlan.scale 0 = (![0, 0, 1] : Vec 3) i := congrFun this
    simp only [h]
    rfl
  · intro i hi
    refine ⟨rfl, rfl, ?_, ?_, rfl⟩
    · simp [sampleScannedTunersFD, Series.index, scannedPlan]
    · intro l hl
      exact ⟨0, by simp [scannedPlan]; omega, by simpa [sampleScannedTunersFD, Series.index, scannedPlan] using hl⟩

end Qtune.EndToEnd
