import Verif.Kalman.Lemmas
import Verif.Kalman.Spec

/-! # Properties of `KalmanGradient` -/

namespace Qtune.Kalman

open Matrix

variable {m n : Nat}

theorem variance_eq {α : Type} [Fintype α] (P : Matrix α α ℝ) (v : α → ℝ) :
    variance P v = v ⬝ᵥ (P *ᵥ v) := by
  unfold variance dotProduct mulVec dotProduct
  refine Finset.sum_congr rfl fun i _ => ?_
  rw [Finset.mul_sum]
  exact Finset.sum_congr rfl fun j _ => by ring

/-! ### The covariance matrix stays positive semidefinite -/

theorem predict_posSemidef {σ ρ : Type} [Fintype σ] [DecidableEq σ] {f : Filter σ ρ} (hP : f.P.PosSemidef)
    {Q : Option (Matrix σ σ ℝ)} (hQ : (Q.getD f.Q).PosSemidef) : (f.predict Q).P.PosSemidef := by
  unfold Filter.predict
  exact ((conj_posSemidef hP f.F).smul (mul_self_nonneg f.alpha)).add hQ

theorem correct_posSemidef {σ ρ : Type} [Fintype σ] [DecidableEq σ] [Fintype ρ] [DecidableEq ρ]
    {f : Filter σ ρ} (hP : f.P.PosSemidef) {R : Option (Matrix ρ ρ ℝ)} (hR : (R.getD f.R).PosSemidef)
    (H : Matrix ρ σ ℝ) (z : ρ → ℝ) : (f.correct z R H).1.P.PosSemidef := by
  unfold Filter.correct
  dsimp only
  split
  · exact hP
  · exact (conj_posSemidef hP _).add (conj_posSemidef hR _)

theorem correct_keeps {σ ρ : Type} [Fintype σ] [DecidableEq σ] [Fintype ρ] [DecidableEq ρ]
    (f : Filter σ ρ) (R : Option (Matrix ρ ρ ℝ)) (H : Matrix ρ σ ℝ) (z : ρ → ℝ) :
    (f.correct z R H).1.F = f.F ∧ (f.correct z R H).1.Q = f.Q ∧ (f.correct z R H).1.R = f.R ∧
      (f.correct z R H).1.alpha = f.alpha := by
  unfold Filter.correct
  dsimp only
  split <;> exact ⟨rfl, rfl, rfl, rfl⟩

/-- **C43**.  If the initial covariance and all noise matrices (stored or passed) are positive
semidefinite, then after any calls of `update` (also if some of them raised an exception) the covariance
matrix is symmetric positive semidefinite.  There is no condition on the state transition, the fading
factor, the differences and the values. -/
theorem covariance_posSemidef (f : KG m n) (hP : f.P.PosSemidef) (hQ : f.Q.PosSemidef)
    (hR : f.R.PosSemidef) (cs : List (Call m n))
    (hcs : ∀ c ∈ cs, (∀ R, c.R = some R → R.PosSemidef) ∧ ∀ Q, c.Q = some Q → Q.PosSemidef) :
    (calls cs f).P.PosSemidef ∧ (calls cs f).Pᵀ = (calls cs f).P ∧
      ∀ v, 0 ≤ variance (calls cs f).P v := by
  have key : (calls cs f).P.PosSemidef := by
    induction cs generalizing f with
    | nil => exact hP
    | cons c cs ih =>
      obtain ⟨h1, h2⟩ := hcs c (by simp)
      have hQ' : (c.Q.getD f.Q).PosSemidef := by
        cases hc : c.Q with
        | none => exact hQ
        | some Q => exact h2 Q hc
      have hR' : (c.R.getD f.R).PosSemidef := by
        cases hc : c.R with
        | none => exact hR
        | some R => exact h1 R hc
      unfold calls KG.update
      have hf : (if c.predict = true then f.predict c.Q else f).P.PosSemidef := by
        split
        · exact predict_posSemidef hP hQ'
        · exact hP
      have hfQ : (if c.predict = true then f.predict c.Q else f).Q = f.Q := by split <;> rfl
      have hfR : (if c.predict = true then f.predict c.Q else f).R = f.R := by split <;> rfl
      refine ih _ (correct_posSemidef hf (by rw [hfR]; exact hR') _ _) ?_ ?_
        (fun c' hc' => hcs c' (by simp [hc']))
      · rw [(correct_keeps _ _ _ _).2.1, hfQ]; exact hQ
      · rw [(correct_keeps _ _ _ _).2.2.1, hfR]; exact hR
  refine ⟨key, symm_of_posSemidef key, fun v => ?_⟩
  rw [variance_eq]
  simpa using key.dotProduct_mulVec_nonneg v

/-- The defaults of `KalmanGradient` meet the hypotheses of C43. -/
example (alpha : ℝ) : let f : KG m n := KG.new none none none none none alpha
    f.P.PosSemidef ∧ f.Q.PosSemidef ∧ f.R.PosSemidef :=
  ⟨PosSemidef.one, PosSemidef.zero, PosSemidef.one⟩

/-! ### A correction never increases the uncertainty -/

/-- **C44**.  The correction step with a positive definite measurement noise `R` never raises; it
does not increase the variance along any direction `v`, and afterwards the variance of the measured
combination of parameters is at most its measurement variance. -/
theorem correction_decreases_variance (f : KG m n) (hP : f.P.PosSemidef) (d : Fin n → ℝ) (z : Fin m → ℝ)
    (R : Option (Matrix (Fin m) (Fin m) ℝ)) (hR : (R.getD f.R).PosDef) :
    ∃ f', f.update d z R none false = (f', .ok ()) ∧
      (∀ v, variance f'.P v ≤ variance f.P v) ∧
      ∀ u, variance (matrixH m d * f'.P * (matrixH m d)ᵀ) u ≤ variance (R.getD f.R) u := by
  set H := matrixH m d with hH
  set R' := R.getD f.R with hR'
  refine ⟨_, correct_ok hP hR H z, fun v => ?_, fun u => ?_⟩
  · simp only
    rw [← hR']
    have hS := innovation_posDef hP hR H
    have h0 := (conj_posSemidef hS.posSemidef.inv (f.P * Hᵀ)).dotProduct_mulVec_nonneg v
    have he : f.P * Hᵀ * (f.innovation R' H)⁻¹ * (f.P * Hᵀ)ᵀ =
        f.P * Hᵀ * (f.innovation R' H)⁻¹ * H * f.P := by
      rw [transpose_mul, transpose_transpose, symm_of_posSemidef hP, ← Matrix.mul_assoc]
    rw [he] at h0
    simp only [star_trivial] at h0
    rw [variance_eq, variance_eq, sub_mulVec, dotProduct_sub]
    linarith
  · simp only
    rw [← hR']
    have hS := innovation_posDef hP hR H
    have hdet : IsUnit (f.innovation R' H).det := (isUnit_iff_isUnit_det _).1 hS.isUnit
    set S := f.innovation R' H with hSdef
    have hSeq : H * f.P * Hᵀ = S - R' := by
      rw [hSdef, Filter.innovation, ← Matrix.mul_assoc, add_sub_cancel_right]
    have he : H * (f.P - f.P * Hᵀ * S⁻¹ * H * f.P) * Hᵀ = R' - R' * S⁻¹ * R'ᵀ := by
      have h1 : H * (f.P - f.P * Hᵀ * S⁻¹ * H * f.P) * Hᵀ =
          (H * f.P * Hᵀ) - (H * f.P * Hᵀ) * S⁻¹ * (H * f.P * Hᵀ) := by
        simp only [Matrix.mul_sub, Matrix.sub_mul, Matrix.mul_assoc]
      rw [h1, hSeq, symm_of_posDef hR]
      have h2 : S * S⁻¹ = 1 := mul_nonsing_inv S hdet
      have h3 : S⁻¹ * S = 1 := nonsing_inv_mul S hdet
      simp only [Matrix.sub_mul, Matrix.mul_sub, h2, Matrix.one_mul]
      rw [Matrix.mul_assoc R' S⁻¹ S, h3, Matrix.mul_one]
      abel
    rw [he]
    have h0 := (conj_posSemidef hS.posSemidef.inv R').dotProduct_mulVec_nonneg u
    simp only [star_trivial] at h0
    rw [variance_eq, variance_eq, sub_mulVec, dotProduct_sub]
    linarith

/-! ### The measurement matrix -/

theorem flat_grad (f : KG m n) : flat f.grad = f.x := by
  funext j
  unfold flat KG.grad
  congr 1
  ext
  simp only [Fin.coe_divNat, Fin.coe_modNat]
  rw [Nat.mul_comm]
  exact Nat.div_add_mod j.1 n

theorem matrixH_eq (d : Fin n → ℝ) (k : Fin m) (l : Fin m) (i : Fin n) :
    matrixH m d k (finProdFinEquiv (l, i)) = if l = k then d i else 0 := by
  unfold matrixH
  simp only [finProdFinEquiv_apply_val]
  by_cases h : l = k
  · subst h
    rw [dif_pos (by have := i.2; rw [Nat.mul_comm]; omega), if_pos rfl]
    congr 1
    ext
    simp [Nat.mul_comm]
  · rw [if_neg h, dif_neg]
    rintro ⟨h1, h2⟩
    apply h
    have hi := i.2
    have hn : 0 < n := by omega
    ext
    have h3 : (i.1 + n * l.1) / n = l.1 := by
      rw [Nat.add_mul_div_left _ _ hn, Nat.div_eq_of_lt hi, Nat.zero_add]
    rw [← h3]
    rw [Nat.div_eq_iff hn] 
    constructor <;> omega

/-- **C46**.  For every state vector the measurement matrix of a difference `d` maps it to the
product of the gradient matrix reported for that state with `d`. -/
theorem measurement_matrix (f : KG m n) (d : Fin n → ℝ) :
    matrixH m d *ᵥ f.x = fun k => ∑ i, f.grad k i * d i := by
  funext k
  have : ∀ g : Fin (m * n) → ℝ, ∑ j, g j = ∑ l : Fin m, ∑ i : Fin n, g (finProdFinEquiv (l, i)) := by
    intro g
    rw [← Fintype.sum_prod_type', ← finProdFinEquiv.sum_comp]
  unfold mulVec dotProduct
  rw [this]
  simp only [matrixH_eq, ite_mul, zero_mul]
  rw [Finset.sum_comm]
  simp only [Finset.sum_ite_eq', Finset.mem_univ, if_true]
  refine Finset.sum_congr rfl fun i _ => ?_
  rw [mul_comm]
  unfold KG.grad
  congr 2
  ext
  simp [finProdFinEquiv_apply_val, Nat.mul_comm, Nat.add_comm]

example : ∃ (f : KG 2 2) (d : Fin 2 → ℝ), matrixH 2 d *ᵥ f.x = ![5, 11] :=
  ⟨⟨![1, 2, 3, 4], 1, 1, 1, 1, 1⟩, ![1, 2], by
    rw [measurement_matrix]
    funext k
    fin_cases k <;> simp [KG.grad, Fin.sum_univ_two] <;> norm_num⟩

end Qtune.Kalman
