import Verif.Kalman.Model
import Mathlib.Analysis.Matrix.Order
import Mathlib.LinearAlgebra.Matrix.PosDef

/-! # Algebra of the Kalman filter -/

namespace Qtune.Kalman

open Matrix

variable {σ ρ : Type} [Fintype σ] [DecidableEq σ] [Fintype ρ] [DecidableEq ρ]

theorem conj_posSemidef {α β : Type} [Fintype α] [Fintype β] {P : Matrix α α ℝ} (h : P.PosSemidef)
    (A : Matrix β α ℝ) : (A * P * Aᵀ).PosSemidef := by
  have := h.mul_mul_conjTranspose_same A
  rwa [conjTranspose_eq_transpose_of_trivial] at this

theorem symm_of_posSemidef {P : Matrix σ σ ℝ} (h : P.PosSemidef) : Pᵀ = P := by
  have := h.isHermitian
  unfold IsHermitian at this
  rwa [conjTranspose_eq_transpose_of_trivial] at this

theorem symm_of_posDef {R : Matrix ρ ρ ℝ} (h : R.PosDef) : Rᵀ = R :=
  symm_of_posSemidef h.posSemidef

/-- The innovation covariance of a positive definite measurement noise is positive definite. -/
theorem innovation_posDef {f : Filter σ ρ} (hP : f.P.PosSemidef) {R : Matrix ρ ρ ℝ} (hR : R.PosDef)
    (H : Matrix ρ σ ℝ) : (f.innovation R H).PosDef := by
  unfold Filter.innovation
  rw [← Matrix.mul_assoc]
  exact PosDef.posSemidef_add (conj_posSemidef hP H) hR

/-- With the optimal gain the Joseph form is `(1 - K H) P`. -/
theorem joseph {f : Filter σ ρ} (hP : f.Pᵀ = f.P) {R : Matrix ρ ρ ℝ} (hR : Rᵀ = R) (H : Matrix ρ σ ℝ)
    (hdet : IsUnit (f.innovation R H).det) :
    (1 - f.gain R H * H) * f.P * (1 - f.gain R H * H)ᵀ + f.gain R H * R * (f.gain R H)ᵀ =
      f.P - f.P * Hᵀ * (f.innovation R H)⁻¹ * H * f.P := by
  set S := f.innovation R H with hS
  have hST : Sᵀ = S := by
    rw [hS, Filter.innovation]
    simp [transpose_mul, hP, hR, Matrix.mul_assoc]
  have hK : f.gain R H = f.P * Hᵀ * S⁻¹ := rfl
  have hKS : f.gain R H * S = f.P * Hᵀ := by
    rw [hK, Matrix.mul_assoc, nonsing_inv_mul S hdet, Matrix.mul_one]
  have hKT : (f.gain R H)ᵀ = S⁻¹ * H * f.P := by
    rw [hK]
    simp [transpose_mul, transpose_nonsing_inv, hST, hP, Matrix.mul_assoc]
  set K := f.gain R H
  have hexp : (1 - K * H) * f.P * (1 - K * H)ᵀ + K * R * Kᵀ =
      f.P - K * H * f.P - f.P * Hᵀ * Kᵀ + K * (H * (f.P * Hᵀ) + R) * Kᵀ := by
    rw [transpose_sub, transpose_one, transpose_mul]
    simp only [Matrix.sub_mul, Matrix.mul_sub, Matrix.mul_add, Matrix.add_mul, Matrix.one_mul,
      Matrix.mul_one, Matrix.mul_assoc]
    abel
  rw [hexp]
  have : H * (f.P * Hᵀ) + R = S := rfl
  rw [this, hKS, sub_add_cancel, hK]

/-- The correction step with positive definite noise. -/
theorem correct_ok {f : Filter σ ρ} (hP : f.P.PosSemidef) {R : Option (Matrix ρ ρ ℝ)}
    (hR : (R.getD f.R).PosDef) (H : Matrix ρ σ ℝ) (z : ρ → ℝ) :
    f.correct z R H = ({ f with
      x := f.x + f.gain (R.getD f.R) H *ᵥ (z - H *ᵥ f.x)
      P := f.P - f.P * Hᵀ * (f.innovation (R.getD f.R) H)⁻¹ * H * f.P }, .ok ()) := by
  have hS := innovation_posDef hP hR H
  have hdet : IsUnit (f.innovation (R.getD f.R) H).det := (isUnit_iff_isUnit_det _).1 hS.isUnit
  unfold Filter.correct
  rw [if_neg hdet.ne_zero]
  simp only
  rw [joseph (symm_of_posSemidef hP) (symm_of_posDef hR) H hdet]

theorem quad_conj {α β : Type} [Fintype α] [Fintype β] (P : Matrix α α ℝ) (A : Matrix β α ℝ)
    (v : β → ℝ) : v ⬝ᵥ ((A * P * Aᵀ) *ᵥ v) = (Aᵀ *ᵥ v) ⬝ᵥ (P *ᵥ (Aᵀ *ᵥ v)) := by
  rw [← mulVec_mulVec, ← mulVec_mulVec, dotProduct_mulVec, ← mulVec_transpose]

end Qtune.Kalman
