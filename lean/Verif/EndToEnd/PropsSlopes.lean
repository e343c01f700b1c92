import Verif.EndToEnd.PropsRobust
import Verif.EndToEnd.PropsKink
import Mathlib.Analysis.SpecialFunctions.Trigonometric.Bounds

/-!
# C128: devices whose slope changes by less than a factor of two
-/

namespace Qtune.EndToEnd

open Qtune.Tuner Qtune.Gradient Qtune.Autotuner

/-- The response, in units of the target, rises everywhere, with slopes from `a` to `b`. -/
def SlopesBetween (S : Setup 1 1) (a b : ℝ) : Prop :=
  ∀ v s : Vec 1, 0 ≤ s 0 → a * s 0 ≤ S.response 0 (v + s) / S.scale 0 - S.response 0 v / S.scale 0 ∧
    S.response 0 (v + s) / S.scale 0 - S.response 0 v / S.scale 0 ≤ b * s 0

/-- **C128** (partial): if the steepest slope is less than twice the flattest one, the tuning is completed, whatever the response,
the start, the set point and the tolerance.  By `increasing_device_is_tuned_refuted` a factor of two is too much. -/
theorem slopes_within_factor_two_partial {S : Setup 1 1} (hS : S.Sound) {a b : ℝ} (ha : 0 < a) (hab : b < 2 * a)
    (hslope : SlopesBetween S a b) {orth : Orth 1} (ho : OrthSpec orth) {lstsq : Newton.Lstsq (Fin 1)}
    (hls : Newton.LstsqSpec lstsq) (c : Vec 1) {η : ℝ} (hη : 0 < η) (t : OneTuner (FD 1) 1) (ht : InitialEven S c η t) :
    ∃ N, CompletesWithin S (fdI orth) lstsq N (fresh t (volts c)) := by
  have hle : a ≤ b := by
    have := hslope 0 (fun _ => 1) (by norm_num)
    linarith [this.1, this.2]
  have hscale : S.scale 0 ≠ 0 := (hS.scale 0).2
  let S' : Setup 1 1 := { S with grad := fun _ _ => (a + b) / 2 * S.scale 0 }
  have hS' : S'.Sound := ⟨hS.gates_nodup, hS.gates_all, hS.names, hS.desired, hS.scale, hS.tolerance, hS.nonempty, hS.evaluators⟩
  have hg : ∀ k i, S'.grad k i / S'.scale k = (a + b) / 2 := by
    intro k i
    obtain rfl : k = 0 := Subsingleton.elim _ _
    show (a + b) / 2 * S.scale 0 / S.scale 0 = _
    field_simp
  have hbend : NearlyAffine S' ((b - a) / 2) 0 := by
    intro v s
    rw [len_one, len_one]
    simp only [hg, Fin.sum_univ_one, Fin.isValue]
    show |S.response 0 (v + s) / S.scale 0 - S.response 0 v / S.scale 0 - (a + b) / 2 * s 0| ≤ _
    rcases le_total 0 (s 0) with h | h
    · obtain ⟨h1, h2⟩ := hslope v s h
      rw [abs_of_nonneg h, abs_le]
      constructor <;> linarith
    · obtain ⟨h1, h2⟩ := hslope (v + s) (-s) (by simpa using h)
      rw [add_neg_cancel_right] at h1 h2
      simp only [Pi.neg_apply] at h1 h2
      rw [abs_of_nonpos h, abs_le]
      constructor <;> linarith
  have hσ : Conditioned S' ((a + b) / 2) := by
    intro x
    rw [len_one, len_one]
    simp only [hg, Fin.sum_univ_one]
    rw [abs_mul, abs_of_nonneg (by linarith : 0 ≤ (a + b) / 2), mul_comm]
  obtain ⟨N, hN⟩ := nearly_affine_device_is_tuned_eventually hS' (by linarith) le_rfl hη hbend hσ (ρ := (b - a) / 2)
    (by simp) (by linarith) ho hls c t
    ⟨ht.target, ht.ests, ht.gates, ht.index, ht.lastIndex, ht.queued, ht.maxStep⟩
    (fun k tol hk => by rw [zero_div]; exact hS.tolerance k tol hk)
  exact ⟨N, hN⟩

/-- A response with a kink and slopes 1 and `3/2`. -/
example {S : Setup 1 1} (hS : Kinked S (3 / 2)) : SlopesBetween S 1 (3 / 2) := by
  intro v s hs
  rw [hS.response, hS.response, Pi.add_apply]
  unfold kinked
  split_ifs <;> constructor <;> linarith

/-- So is one whose slope changes without a kink: the response `5 x + sin x` has slopes from 4 to 6. -/
example {S : Setup 1 1} (hS : ∀ v, S.response 0 v / S.scale 0 = 5 * v 0 + Real.sin (v 0)) : SlopesBetween S 4 6 := by
  intro v s hs
  rw [hS, hS, Pi.add_apply]
  have h1 : |Real.sin (v 0 + s 0) - Real.sin (v 0)| ≤ s 0 := by
    have := Real.abs_sin_sub_sin_le (v 0 + s 0) (v 0)
    rwa [add_sub_cancel_left, abs_of_nonneg hs] at this
  obtain ⟨h2, h3⟩ := abs_le.1 h1
  constructor <;> linarith

end Qtune.EndToEnd
