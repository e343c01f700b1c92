import Verif.Gradient.UtilProps
import Mathlib.Tactic.ByContra

/-! # Finite differences: when the covariance is the propagated measurement error (C39) -/

namespace Qtune.Gradient

/-- The covariance that the matrix `C` assigns to the changes of the parameter over the displacements
`x` and `y`. -/
def covAlong {n : Nat} (C : Matrix (Fin n) (Fin n) ℝ) (x y : Vec n) : ℝ :=
  ∑ i, ∑ j, x i * C i j * y j

theorem IsSensitivity.unique {m n : Nat} {p : Fin m → Vec n} {s t : Fin m → Vec n}
    (hs : IsSensitivity p s) (ht : IsSensitivity p t) : s = t := by
  funext k
  obtain ⟨C, hC⟩ := hs k
  obtain ⟨D, hD⟩ := ht k
  rw [hC] at hD
  simp only [Except.ok.injEq, Prod.mk.injEq] at hD
  exact hD.1

theorem covAlong_propagated {m n : Nat} (s : Fin m → Vec n) (v : Fin m → ℝ) (x y : Vec n) :
    covAlong (propagated s v) x y = ∑ k, v k * (∑ i, s k i * x i) * ∑ j, s k j * y j := by
  have h1 : ∀ k, v k * (∑ i, s k i * x i) * ∑ j, s k j * y j =
      ∑ i, ∑ j, x i * (v k * s k i * s k j) * y j := by
    intro k
    rw [mul_assoc, Finset.sum_mul_sum, Finset.mul_sum]
    refine Finset.sum_congr rfl fun i _ => ?_
    rw [Finset.mul_sum]
    exact Finset.sum_congr rfl fun j _ => by ring
  simp only [covAlong, propagated, h1]
  rw [Finset.sum_comm (s := (Finset.univ : Finset (Fin m)))]
  refine Finset.sum_congr rfl fun i _ => ?_
  rw [Finset.sum_comm (s := (Finset.univ : Finset (Fin m)))]
  refine Finset.sum_congr rfl fun j _ => ?_
  rw [Finset.mul_sum, Finset.sum_mul]

/-- **C39**, how far the returned covariance is off: the changes of the parameter towards two measured
points have the error of the base point in common, so that their covariance is the variance of the base point,
but the returned matrix treats them as independent. -/
theorem covariance_of_differences {n : Nat} (p : Fin (n + 1) → Vec n)
    (values variances : Fin (n + 1) → ℝ) (g : Vec n) (C : Matrix (Fin n) (Fin n) ℝ)
    (h : calculateGradient (List.ofFn p) (List.ofFn values) (List.ofFn variances) = .ok (g, C))
    (sens : Fin (n + 1) → Vec n) (hsens : IsSensitivity p sens) (a b : Fin n) (hab : a ≠ b) :
    covAlong C (p a.succ - p 0) (p b.succ - p 0) = 0 ∧
      covAlong (propagated sens variances) (p a.succ - p 0) (p b.succ - p 0) = variances 0 := by
  have hcalc : ∀ v s : Fin (n + 1) → ℝ,
      calculateGradient (List.ofFn p) (List.ofFn v) (List.ofFn s) =
      fromDiffs (List.ofFn fun k : Fin n => p k.succ - p 0)
        (List.ofFn fun k : Fin n => v k.succ - v 0)
        (List.ofFn fun k : Fin n => s k.succ + s 0) := by
    intro v s
    unfold calculateGradient
    rw [if_neg (by simp), if_neg (by simp [List.ofFn_succ]), if_pos (by simp), baseDiffs_ofFn,
      baseDiffs_ofFn, baseSums_ofFn]
  rw [hcalc] at h
  obtain ⟨hdet, -, hC⟩ := fromDiffs_ok h
  set D := (Matrix.of fun i k => (p (Fin.succ k) - p 0 : Vec n) i) with hD
  have hWD : D⁻¹ * D = 1 := Matrix.nonsing_inv_mul _ (isUnit_iff_ne_zero.mpr hdet)
  have hunit : ∀ l c : Fin n, ∑ i, D⁻¹ l i * (p c.succ - p 0 : Vec n) i = if l = c then 1 else 0 := by
    intro l c
    have := congrFun (congrFun hWD l) c
    rw [Matrix.mul_apply, Matrix.one_apply] at this
    exact this
  have hsum : ∀ (k : Fin (n + 1)) (c : Fin n), ∑ i, sens k i * (p c.succ - p 0 : Vec n) i =
      (if c.succ = k then 1 else 0) - (if (0 : Fin (n + 1)) = k then 1 else 0) := by
    intro k c
    obtain ⟨C', hk⟩ := hsens k
    rw [hcalc] at hk
    obtain ⟨-, hg, -⟩ := fromDiffs_ok hk
    rw [hg, vector_ofFn]
    have : ∑ i, Matrix.vecMul (fun l : Fin n => (Pi.single k (1 : ℝ) : Fin (n + 1) → ℝ) l.succ -
        (Pi.single k (1 : ℝ) : Fin (n + 1) → ℝ) 0) D⁻¹ i * (p c.succ - p 0 : Vec n) i =
        ∑ l, ((Pi.single k (1 : ℝ) : Fin (n + 1) → ℝ) l.succ -
          (Pi.single k (1 : ℝ) : Fin (n + 1) → ℝ) 0) * ∑ i, D⁻¹ l i * (p c.succ - p 0 : Vec n) i := by
      simp only [Matrix.vecMul, dotProduct, Finset.sum_mul, Finset.mul_sum]
      rw [Finset.sum_comm]
      exact Finset.sum_congr rfl fun l _ => Finset.sum_congr rfl fun i _ => by ring
    rw [this]
    simp only [hunit, mul_ite, mul_one, mul_zero, Finset.sum_ite_eq', Finset.mem_univ, if_true,
      Pi.single_apply]
  constructor
  · have hC' : C = propagated (fun l => D⁻¹ l) (fun l : Fin n => variances l.succ + variances 0) := by
      ext i j
      rw [hC, sandwich_apply, vector_ofFn]
      rfl
    rw [hC', covAlong_propagated]
    refine Finset.sum_eq_zero fun k _ => ?_
    rw [hunit, hunit]
    by_cases hka : k = a
    · rw [if_neg (fun hb => hab (hka.symm.trans hb)), mul_zero]
    · rw [if_neg hka, mul_zero, zero_mul]
  · rw [covAlong_propagated, Fin.sum_univ_succ]
    have hrest : ∑ k : Fin n, variances k.succ * (∑ i, sens k.succ i * (p a.succ - p 0 : Vec n) i) *
        ∑ j, sens k.succ j * (p b.succ - p 0 : Vec n) j = 0 := by
      refine Finset.sum_eq_zero fun k _ => ?_
      rw [hsum, hsum, if_neg (Fin.succ_ne_zero k).symm]
      by_cases hka : a.succ = k.succ
      · rw [if_neg (c := b.succ = k.succ) (fun hb => hab (Fin.succ_injective _ (hka.trans hb.symm)))]
        ring
      · rw [if_neg hka]
        ring
    rw [hrest, hsum, hsum, if_neg (Fin.succ_ne_zero a), if_neg (Fin.succ_ne_zero b), if_pos rfl]
    ring

/-- **C39 decided for `n+1` points**: a returned covariance is the propagated measurement error exactly if
there is at most one gate or the value at the base point is exact. -/
theorem covariance_propagated_iff {n : Nat} (p : Fin (n + 1) → Vec n)
    (values variances : Fin (n + 1) → ℝ) (g : Vec n) (C : Matrix (Fin n) (Fin n) ℝ)
    (h : calculateGradient (List.ofFn p) (List.ofFn values) (List.ofFn variances) = .ok (g, C))
    (sens : Fin (n + 1) → Vec n) (hsens : IsSensitivity p sens) :
    C = propagated sens variances ↔ n ≤ 1 ∨ variances 0 = 0 := by
  constructor
  · intro hC
    by_contra hcon
    rw [not_or, not_le] at hcon
    obtain ⟨h1, h2⟩ := covariance_of_differences p values variances g C h sens hsens
      ⟨0, by omega⟩ ⟨1, by omega⟩ (by simp)
    rw [← hC, h1] at h2
    exact hcon.2 h2.symm
  · intro hcase
    rcases Nat.eq_zero_or_pos n with rfl | hn
    · ext i
      exact i.elim0
    · obtain ⟨t, ht, hC⟩ := covariance_propagated_partial p values variances
        (hcase.imp_left fun h => by omega) g C h
      rw [hC, ht.unique hsens]

/-- The hypotheses are met: there are sensitivities whenever the points are in general position. -/
example : ∃ g C sens, calculateGradient (List.ofFn corner) (List.ofFn fun _ : Fin 3 => (0 : ℝ))
    (List.ofFn (![1, 0, 0] : Fin 3 → ℝ)) = .ok (g, C) ∧ IsSensitivity corner sens ∧
    C ≠ propagated sens ![1, 0, 0] := by
  obtain ⟨g, C, h, -⟩ := covariance_propagated_refuted
  obtain ⟨sens, hs, -⟩ := covariance_base _ _ _ _ _ h
  refine ⟨g, C, sens, h, hs, fun hC => ?_⟩
  have := (covariance_propagated_iff corner _ _ g C h sens hs).mp hC
  simp at this

end Qtune.Gradient
