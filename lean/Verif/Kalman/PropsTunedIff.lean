import Verif.Kalman.EstimatorTuned

/-! # When a request with a tuned Jacobian disturbs the tuned parameter (C48) -/

namespace Qtune.Kalman

open Matrix

/-- **C48 decided for two gates and one tuned parameter that depends on both**: every requested point leaves
the tuned parameter unchanged to first order exactly if `epsilon` is the same for both gates. -/
theorem request_keeps_tuned_iff {nullspace : Nullspace} (hn : NullspaceSpec nullspace) (a b : ℝ)
    (ha : a ≠ 0) (hb : b ≠ 0) (f : KG 1 2) (p : Fin 2 → ℝ) (value : Option ℝ) (eps : Fin 2 → ℝ)
    (m : ℝ) {q : Fin 2 → Val}
    (hq : (Est.new f p value (fun _ => .fin m) eps).requireTuned nullspace id !![a, b] = some q) :
    ∃ d, q = displaced p d ∧ (!![a, b] *ᵥ d = 0 ↔ eps 0 = eps 1) := by
  obtain ⟨v, hv, -, rfl⟩ := tuned_request_sound hn Function.injective_id _ f p value eps m hq
  refine ⟨_, rfl, ?_⟩
  have h2 := null_row hv.null
  have h3 := hv.unit
  simp only [id, Fin.sum_univ_two] at h2 h3
  have hv0 : v 0 ≠ 0 := by
    intro h0
    rw [h0, mul_zero, zero_add] at h2
    rw [h0, (mul_eq_zero.mp h2).resolve_left hb] at h3
    norm_num at h3
  constructor
  · intro h
    have h1 := null_row h
    have : a * v 0 * (eps 0 - eps 1) = 0 := by linear_combination h1 - eps 1 * h2
    rcases mul_eq_zero.mp this with h4 | h4
    · exact absurd (mul_eq_zero.mp h4) (by tauto)
    · linarith
  · intro h
    ext i
    fin_cases i
    simp [mulVec, dotProduct, Fin.sum_univ_two, h]
    linear_combination eps 1 * h2

/-- Such requests are made, and with different entries of `epsilon` they disturb the tuned parameter. -/
example {nullspace : Nullspace} (hn : NullspaceSpec nullspace) :
    ∃ (f : KG 1 2) (p eps : Fin 2 → ℝ) (J : Matrix (Fin 1) (Fin 2) ℝ) (d : Fin 2 → ℝ),
      f.P.PosDef ∧ (∀ i, 0 < eps i) ∧
      (Est.new f p (some 0) (fun _ => .fin 1) eps).requireTuned nullspace id J = some (displaced p d) ∧
      J *ᵥ d ≠ 0 := request_keeps_tuned_refuted hn

end Qtune.Kalman
