import Verif.Signal.Props

/-!
# The disagreements of the signal processing, for all data (C67, C68, C89)
-/

namespace Qtune.Signal

/-- C67 is false for every scan with a step at its last point: whatever the levels and the width of the window are, the
step is not seen and the function returns half a window after the beginning of the data. -/
theorem last_step_refuted (n w : Nat) (a b : ℝ) (h : w + 2 ≤ n) :
    leadIndex (cleanStep n (n - 1) a b) w = .ok (roundHalf w) := by
  have hl := cleanStep_length (show n - 1 ≤ n by omega) a b
  obtain ⟨r, hr⟩ := (lead_index_ok (cleanStep n (n - 1) a b) w).1.mpr (by omega)
  obtain ⟨-, i, ⟨i1, -, i3⟩, rfl⟩ := (lead_index_ok (cleanStep n (n - 1) a b) w).2 r hr
  rw [hl] at i1
  have hj : ∀ j < n - w - 1, jump (cleanStep n (n - 1) a b) w j = 0 := by
    intro j hj
    unfold jump
    rw [cleanStep_getD (by omega) _ _ (by omega), cleanStep_getD (by omega) _ _ (by omega), if_pos (by omega),
      if_pos (by omega)]
    simp
  have hi0 : i = 0 := by
    by_contra hc
    have := i3 0 (by omega)
    rw [hj 0 (by omega), hj i i1] at this
    exact lt_irrefl _ this
  subst hi0
  rw [hr, Nat.zero_add]

/-- 320 points and a window of 16 points: the result is 311 points away from the step. -/
example : leadIndex (cleanStep 320 319 0 1) 16 = .ok 8 := last_step_refuted 320 16 0 1 (by omega)

/-- C68 is false for every data with one point: the function fails for every width. -/
theorem moving_average_one_point_refuted (x : ℝ) (w : Nat) : movingAverage [x] w = .error .indexError := by
  unfold movingAverage
  by_cases hw : 0 < w
  · simp [hw]
  · have : w = 0 := by omega
    subst this
    simp

/-- C89 is false for almost every data: the array of the caller keeps its values exactly if the data is 0 at all
points but the first `n` and the last one. -/
theorem find_lead_keeps_data_refuted (data : List ℝ) (n : Nat) :
    (findLead data n).1 = data ↔ ∀ i, n ≤ i → i + 1 < data.length → data.getD i 0 = 0 := by
  by_cases h : n + 2 ≤ data.length
  · obtain ⟨h1, h2, h3⟩ := subtractShifted_spec n data (data.length - n - 1) (by omega)
    constructor
    · intro he i hn hi
      have hk := h2 (i - n) (by omega)
      have he' : subtractShifted n (data.length - n - 1) data = data := he
      rw [he', Nat.sub_add_cancel hn] at hk
      linarith
    · intro hz
      show subtractShifted n (data.length - n - 1) data = data
      apply List.ext_getElem h1
      intro i g1 g2
      have e1 : (subtractShifted n (data.length - n - 1) data).getD i 0 = data.getD i 0 := by
        by_cases hi : i < data.length - n - 1
        · rw [h2 i hi, hz (i + n) (by omega) (by omega), sub_zero]
        · exact h3 i (by omega)
      simp only [List.getD_eq_getElem?_getD, List.getElem?_eq_getElem g1, List.getElem?_eq_getElem g2, Option.getD_some] at e1
      exact e1
  · constructor
    · intro _ i hn hi; omega
    · intro _
      show subtractShifted n (data.length - n - 1) data = data
      have : data.length - n - 1 = 0 := by omega
      rw [this]
      rfl

/-- The data of a scan with a step is changed. -/
example : (findLead [1, 1, 0, 0] 1).1 ≠ [1, 1, 0, 0] := by
  intro h
  have := (find_lead_keeps_data_refuted [1, 1, 0, 0] 1).mp h 1 (le_refl _) (by simp)
  norm_num at this

end Qtune.Signal
