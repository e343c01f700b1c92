import Verif.Kalman.PropsRequests

/-! # What `change_position` does to a Kalman estimator -/

namespace Qtune.Kalman

open Matrix

variable {n : Nat}

/-- The estimate after a measurement. -/
theorem update_x {f : KG 1 n} (hs : Static f) (hP : f.P.PosSemidef) (d : Fin n → ℝ) (z : ℝ) {r : ℝ} (hr : 0 < r) :
    ∃ f', f.update d (fun _ => z) (some (r • 1)) none true = (f', .ok ()) ∧
      f'.x = f.x + ((z - wide d ⬝ᵥ f.x) / (wide d ⬝ᵥ (f.P *ᵥ wide d) + r)) • (f.P *ᵥ wide d) := by
  have hR : ((some (r • (1 : Matrix (Fin 1) (Fin 1) ℝ))).getD f.R).PosDef := scalar_posDef hr
  have hu := (update_static hs ⟨d, fun _ => z, some (r • 1), none, true⟩ rfl).trans (correct_ok hP hR _ _)
  refine ⟨_, hu, ?_⟩
  set H := matrixH 1 d with hH
  set S := f.innovation (r • 1) H with hS
  have hH0 : ∀ j, H 0 j = wide d j := fun j => congrFun (matrixH_one d 0) j
  have hPH : ∀ j, (f.P * Hᵀ) j 0 = (f.P *ᵥ wide d) j := fun j => by
    simp [mul_apply, mulVec, dotProduct, hH0]
  have hS0 : S 0 0 = wide d ⬝ᵥ (f.P *ᵥ wide d) + r := by
    simp only [hS, Filter.innovation, Matrix.add_apply, Matrix.smul_apply, one_apply_eq, smul_eq_mul, mul_one]
    rw [mul_apply]
    simp only [hPH, hH0, dotProduct]
  have hSinv : S⁻¹ 0 0 = (wide d ⬝ᵥ (f.P *ᵥ wide d) + r)⁻¹ := by
    have h1 : S⁻¹ * S = 1 :=
      nonsing_inv_mul S ((isUnit_iff_isUnit_det _).1 (innovation_posDef hP hR H).isUnit)
    have h2 := congrFun (congrFun h1 0) 0
    rw [mul_apply, Fin.sum_univ_one, one_apply_eq, hS0] at h2
    exact eq_inv_of_mul_eq_one_left h2
  show f.x + (f.P * Hᵀ * S⁻¹) *ᵥ ((fun _ => z) - H *ᵥ f.x) = _
  congr 1
  funext j
  rw [mulVec, dotProduct, Fin.sum_univ_one, mul_apply, Fin.sum_univ_one, hPH, hSinv]
  have hHx : (H *ᵥ f.x) 0 = wide d ⬝ᵥ f.x := by
    simp only [mulVec, dotProduct, hH0]
  simp only [Pi.sub_apply, hHx, Pi.smul_apply, smul_eq_mul]
  ring

/-- A Kalman estimator without process noise that knows the gradient `g` of an affine response and the value at its
position `p`. -/
structure Knows (g : Fin n → ℝ) (b : ℝ) (p : Fin n → ℝ) (e : Est n) : Prop where
  static : Static e.filter
  psd : e.filter.P.PosSemidef
  pos : e.pos = fun i => some (p i)
  value : e.value = some (b + ∑ i, g i * p i)
  exact_ : e.estimate = g

/-- The position is changed to `p'`, and then the value at `q` is measured exactly: the estimate moves by
a multiple of the difference of the values at `p'` and `p`, along the covariance of the step. -/
theorem after_change_position {g : Fin n → ℝ} {b : ℝ} {p : Fin n → ℝ} {e : Est n} (h : Knows g b p e)
    (p' q : Fin n → ℝ) (hstep : 1 / 10000000 ≤ Real.sqrt (∑ i, (q i - p' i) ^ 2)) {r : ℝ} (hr : 0 < r) (isNew : Bool) :
    ∃ e', (e.changePosition fun i => some (p' i)).update (fun i => some (q i)) (b + ∑ i, g i * q i) r isNew =
        (e', .ok ()) ∧
      ∀ i, e'.estimate i = g i + (∑ j, g j * p' j - ∑ j, g j * p j) /
        (variance e.cov (fun j => q j - p' j) + r) * ∑ j, e.cov i j * (q j - p' j) := by
  set d : Fin n → ℝ := fun i => q i - p' i with hd
  obtain ⟨f', hf', hx⟩ := update_x h.static h.psd d (b + ∑ i, g i * q i - (b + ∑ i, g i * p i)) hr
  unfold Est.update Est.changePosition
  simp only [h.value]
  have hdiff : ∀ i, Val.sub (some (q i)) (some (p' i)) = some (d i) := fun i => rfl
  simp only [hdiff, Option.getD_some]
  have hex : ¬ ∃ i : Fin n, (some (d i) : Val) = none := by rintro ⟨i, hi⟩; cases hi
  rw [if_neg (not_lt.2 hstep), if_neg hex, hf']
  refine ⟨_, rfl, fun i => ?_⟩
  -- the vectors of the filter
  have hxg : e.filter.x = wide g := by
    funext j
    rw [← h.exact_]
    unfold Est.estimate KG.grad wide
    congr 1
    exact Fin.ext (by simp)
  have hcov : ∀ a : Fin n, (e.filter.P *ᵥ wide d) (a.cast (one_mul n).symm) = ∑ j, e.cov a j * d j := by
    intro a
    rw [mulVec, dotProduct, ← wide_sum fun j => e.cov a j * d j]
    refine Finset.sum_congr rfl fun j _ => ?_
    simp [wide, Est.cov]
  have hvar : wide d ⬝ᵥ (e.filter.P *ᵥ wide d) = variance e.cov d := by
    unfold variance dotProduct
    rw [← wide_sum fun i => ∑ j, d i * e.cov i j * d j]
    refine Finset.sum_congr rfl fun j _ => ?_
    have := hcov (j.cast (one_mul n))
    simp only [Fin.cast_cast, Fin.cast_eq_self] at this
    rw [this]
    simp only [wide]
    rw [Finset.mul_sum]
    exact Finset.sum_congr rfl fun a _ => by ring
  have hgd : wide d ⬝ᵥ e.filter.x = ∑ j, g j * q j - ∑ j, g j * p' j := by
    rw [hxg, ← Finset.sum_sub_distrib, ← wide_sum fun j => g j * q j - g j * p' j]
    unfold dotProduct
    refine Finset.sum_congr rfl fun j _ => ?_
    simp only [wide, hd]
    ring
  have hest : ∀ e' : Est n, e'.filter = f' → e'.estimate i = f'.x (i.cast (one_mul n).symm) := by
    rintro e' rfl
    unfold Est.estimate KG.grad
    congr 1
    exact Fin.ext (by simp)
  rw [hest _ (by cases isNew <;> rfl), hx]
  simp only [Pi.add_apply, Pi.smul_apply, smul_eq_mul, hcov, hvar, hgd]
  rw [hxg]
  simp only [wide, Fin.cast_cast, Fin.cast_eq_self]
  congr 2
  congr 1
  ring

/-- **C85**, where it holds: if the value at the new position is that at the old one, an exact measurement does not move
the estimate away from the true gradient. Missing: other changes of the position, see
`change_position_moves_refuted`. -/
theorem change_position_partial {g : Fin n → ℝ} {b : ℝ} {p : Fin n → ℝ} {e : Est n} (h : Knows g b p e)
    (p' q : Fin n → ℝ) (hstep : 1 / 10000000 ≤ Real.sqrt (∑ i, (q i - p' i) ^ 2)) {r : ℝ} (hr : 0 < r) (isNew : Bool)
    (hsame : b + ∑ i, g i * p' i = b + ∑ i, g i * p i) :
    ∃ e', (e.changePosition fun i => some (p' i)).update (fun i => some (q i)) (b + ∑ i, g i * q i) r isNew =
        (e', .ok ()) ∧ e'.estimate = g := by
  obtain ⟨e', h1, h2⟩ := after_change_position h p' q hstep hr isNew
  refine ⟨e', h1, funext fun i => ?_⟩
  rw [h2, show ∑ j, g j * p' j - ∑ j, g j * p j = 0 by linarith]
  simp

/-- **C85** is false for every other change of the position: if the value at the new position is another one than that
at the old one, an exact measurement moves the estimate away from the true gradient, unless the estimator
is certain about the direction of the step. -/
theorem change_position_moves_refuted {g : Fin n → ℝ} {b : ℝ} {p : Fin n → ℝ} {e : Est n} (h : Knows g b p e)
    (p' q : Fin n → ℝ) (hstep : 1 / 10000000 ≤ Real.sqrt (∑ i, (q i - p' i) ^ 2)) {r : ℝ} (hr : 0 < r) (isNew : Bool)
    (hother : b + ∑ i, g i * p' i ≠ b + ∑ i, g i * p i) (hunc : 0 < variance e.cov fun i => q i - p' i) :
    ∃ e', (e.changePosition fun i => some (p' i)).update (fun i => some (q i)) (b + ∑ i, g i * q i) r isNew =
        (e', .ok ()) ∧ e'.estimate ≠ g := by
  obtain ⟨e', h1, h2⟩ := after_change_position h p' q hstep hr isNew
  refine ⟨e', h1, fun heq => ?_⟩
  have hne : (∑ j, g j * p' j - ∑ j, g j * p j) / (variance e.cov (fun j => q j - p' j) + r) ≠ 0 :=
    div_ne_zero (fun h0 => hother (by linarith)) (by linarith : (0 : ℝ) < _).ne'
  have hzero : ∀ i, ∑ j, e.cov i j * (q j - p' j) = 0 := by
    intro i
    have := h2 i
    rw [heq] at this
    have h3 : (∑ j, g j * p' j - ∑ j, g j * p j) / (variance e.cov (fun j => q j - p' j) + r) *
      ∑ j, e.cov i j * (q j - p' j) = 0 := by linarith
    exact (mul_eq_zero.1 h3).resolve_left hne
  have : variance e.cov (fun i => q i - p' i) = 0 := by
    unfold variance
    refine Finset.sum_eq_zero fun i _ => ?_
    have := hzero i
    calc ∑ j, (q i - p' i) * e.cov i j * (q j - p' j) = (q i - p' i) * ∑ j, e.cov i j * (q j - p' j) := by
          rw [Finset.mul_sum]; exact Finset.sum_congr rfl fun j _ => by ring
      _ = 0 := by rw [this, mul_zero]
  linarith

/-- Two gates, the gradient (1, -1): an estimator that knows it. -/
noncomputable def knowing : Est 2 := Est.new (KG.new none (some ![1, -1]) none none none 1) 0 (some 0) (fun _ => .fin 1) 1

theorem knowing_knows : Knows ![1, -1] 0 0 knowing where
  static := ⟨rfl, rfl, rfl⟩
  psd := PosSemidef.one
  pos := rfl
  value := by simp [knowing, Est.new]
  exact_ := by
    funext i
    fin_cases i <;> rfl

theorem knowing_cov (i j : Fin 2) : knowing.cov i j = if i = j then 1 else 0 := by
  unfold Est.cov knowing Est.new KG.new
  simp [one_apply]

/-- Along the line of equal values nothing happens. -/
example : ∃ e', (knowing.changePosition fun _ => some 1).update (fun i => some (![2, 1] i))
    (0 + ∑ i, (![1, -1] : Fin 2 → ℝ) i * (![2, 1] : Fin 2 → ℝ) i) 1 true = (e', .ok ()) ∧ e'.estimate = ![1, -1] :=
  change_position_partial knowing_knows (fun _ => 1) ![2, 1] (by
    rw [Real.le_sqrt' (by norm_num)]; simp [Fin.sum_univ_two]; norm_num) one_pos true (by simp [Fin.sum_univ_two])

/-- Another change of the position spoils the estimate. -/
example : ∃ e', (knowing.changePosition fun i => some (![1, 0] i)).update (fun i => some (![2, 0] i))
    (0 + ∑ i, (![1, -1] : Fin 2 → ℝ) i * (![2, 0] : Fin 2 → ℝ) i) 1 true = (e', .ok ()) ∧ e'.estimate ≠ ![1, -1] :=
  change_position_moves_refuted knowing_knows ![1, 0] ![2, 0] (by
    rw [Real.le_sqrt' (by norm_num)]; simp [Fin.sum_univ_two]; norm_num) one_pos true (by simp [Fin.sum_univ_two])
    (by simp [variance, Fin.sum_univ_two, knowing_cov])

end Qtune.Kalman
