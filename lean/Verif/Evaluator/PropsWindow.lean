import Verif.Evaluator.Model

/-! # The window of `LeadTransition` -/

namespace Qtune.Evaluator

/-- **C157**: the number of points between the two values that are compared is such that they are 0.4 mV apart, up to the distance of two points
of the scan, which covers twice its range (`2 * range / (N_points - 1)` between two points; the number is chosen as if it were `range / N_points` and 0.2 mV). -/
theorem lead_transition_window (m : Scan) (hr : 0 < m.range) (hn : 0 < m.nPoints) :
    (windowPoints m : ℝ) * (2 * m.range / m.nPoints) ≤ 4e-4 ∧ 4e-4 < ((windowPoints m : ℝ) + 1) * (2 * m.range / m.nPoints) := by
  have hn' : (0 : ℝ) < m.nPoints := by exact_mod_cast hn
  have h0 : (0 : ℝ) ≤ (2e-4 : ℝ) / m.range * m.nPoints := by positivity
  have h1 := Nat.floor_le h0
  have h2 := Nat.lt_floor_add_one ((2e-4 : ℝ) / m.range * m.nPoints)
  have e : ((2e-4 : ℝ) / m.range * m.nPoints) * (2 * m.range / m.nPoints) = 4e-4 := by
    field_simp
    norm_num
  have hpos : 0 < 2 * m.range / m.nPoints := by positivity
  rw [← e]
  exact ⟨mul_le_mul_of_nonneg_right h1 hpos.le, mul_lt_mul_of_pos_right h2 hpos⟩

/-- A scan of ± 4 mV with 320 points: 16 points. -/
example : windowPoints ⟨"RFA", 0, 4e-3, 320⟩ = 16 := by
  unfold windowPoints
  norm_num

end Qtune.Evaluator
