import Verif.Kalman.EstimatorSpec
import Verif.Kalman.Props
import Mathlib.Analysis.Matrix.Spectrum

/-! # Lemmas about the Kalman estimator -/

namespace Qtune.Kalman

open Matrix

/-! ### Directions on a list of gates -/

theorem position_get {n : Nat} {gates : List (Fin n)} (h : gates.Nodup) (a : Fin gates.length) :
    position gates (gates.get a) = some a := by
  unfold position
  rw [List.find?_eq_some_iff_getElem]
  refine ⟨by simp, a.1, by simp, by simp, ?_⟩
  intro j hj
  simp only [Bool.not_eq_true', decide_eq_false_iff_not]
  intro heq
  rw [h.get_inj_iff] at heq
  have := congrArg Fin.val heq
  simp at this
  omega

theorem position_none {n : Nat} {gates : List (Fin n)} {i : Fin n} (h : i ∉ gates) :
    position gates i = none := by
  unfold position
  rw [List.find?_eq_none]
  intro a _ ha
  simp only [decide_eq_true_eq] at ha
  exact h (ha ▸ gates.get_mem a)

theorem sum_gates {n : Nat} {gates : List (Fin n)} (h : gates.Nodup) (f : Fin n → ℝ)
    (hf : ∀ i, i ∉ gates → f i = 0) : ∑ i, f i = ∑ a : Fin gates.length, f (gates.get a) := by
  have h1 : ∑ i, f i = ∑ i ∈ gates.toFinset, f i := by
    symm
    refine Finset.sum_subset (Finset.subset_univ _) ?_
    intro i _ hi
    exact hf i (by simpa using hi)
  rw [h1, List.sum_toFinset f h, ← List.sum_ofFn]
  congr 1
  apply List.ext_getElem <;> simp

/-- The vector on all gates with the given entries. -/
noncomputable def spread {n : Nat} (gates : List (Fin n)) (u : Fin gates.length → ℝ) : Fin n → ℝ := fun i =>
  match position gates i with
  | some a => u a
  | none => 0

theorem spread_get {n : Nat} {gates : List (Fin n)} (h : gates.Nodup) (u : Fin gates.length → ℝ)
    (a : Fin gates.length) : spread gates u (gates.get a) = u a := by
  unfold spread
  rw [position_get h]

theorem spread_zero {n : Nat} {gates : List (Fin n)} (u : Fin gates.length → ℝ) (i : Fin n)
    (hi : i ∉ gates) : spread gates u i = 0 := by
  unfold spread
  rw [position_none hi]

theorem variance_gates {n : Nat} {gates : List (Fin n)} (h : gates.Nodup) (C : Matrix (Fin n) (Fin n) ℝ)
    (v : Fin n → ℝ) (hv : ∀ i, i ∉ gates → v i = 0) :
    variance C v = variance (fun a b => C (gates.get a) (gates.get b)) (fun a => v (gates.get a)) := by
  unfold variance
  rw [sum_gates h]
  · refine Finset.sum_congr rfl fun a _ => ?_
    rw [sum_gates h]
    intro i hi
    simp [hv i hi]
  · intro i hi
    simp [hv i hi]

/-! ### Eigenvectors -/

theorem spectral {k : Nat} {A V : Matrix (Fin k) (Fin k) ℝ} {w : Fin k → ℝ}
    (hV : ∀ i j, ∑ a, V a i * V a j = if i = j then 1 else 0)
    (hA : ∀ a j, ∑ b, A a b * V b j = w j * V a j) (u : Fin k → ℝ) :
    ∑ j, (∑ a, V a j * u a) ^ 2 = ∑ a, u a ^ 2 ∧
      variance A u = ∑ j, w j * (∑ a, V a j * u a) ^ 2 := by
  have h1 : Vᵀ * V = 1 := by
    ext i j
    rw [mul_apply, one_apply]
    simpa [transpose_apply] using hV i j
  have h2 : V * Vᵀ = 1 := mul_eq_one_comm.1 h1
  have h3 : A * V = V * diagonal w := by
    ext a j
    rw [mul_apply, mul_diagonal, hA, mul_comm]
  have h4 : A = V * diagonal w * Vᵀ := by
    rw [← h3, Matrix.mul_assoc, h2, Matrix.mul_one]
  have hc : (fun j => ∑ a, V a j * u a) = Vᵀ *ᵥ u := by
    funext j
    simp [mulVec, dotProduct]
  constructor
  · have : (Vᵀ *ᵥ u) ⬝ᵥ (Vᵀ *ᵥ u) = u ⬝ᵥ u := by
      rw [dotProduct_mulVec, vecMul_transpose, mulVec_mulVec, h2, one_mulVec]
    rw [← hc] at this
    simpa [dotProduct, sq] using this
  · rw [variance_eq, h4, ← mulVec_mulVec, ← mulVec_mulVec, dotProduct_mulVec, ← mulVec_transpose, ← hc]
    simp only [dotProduct, mulVec_diagonal]
    exact Finset.sum_congr rfl fun j _ => by ring

/-- The variance along an eigenvector is the eigenvalue. -/
theorem variance_eigenvector {k : Nat} {A V : Matrix (Fin k) (Fin k) ℝ} {w : Fin k → ℝ}
    (hV : ∀ i j, ∑ a, V a i * V a j = if i = j then 1 else 0)
    (hA : ∀ a j, ∑ b, A a b * V b j = w j * V a j) (j : Fin k) :
    variance A (fun a => V a j) = w j := by
  rw [(spectral hV hA _).2]
  simp [hV]

theorem variance_le_max {k : Nat} {A V : Matrix (Fin k) (Fin k) ℝ} {w : Fin k → ℝ}
    (hV : ∀ i j, ∑ a, V a i * V a j = if i = j then 1 else 0)
    (hA : ∀ a j, ∑ b, A a b * V b j = w j * V a j) {M : ℝ} (hM : ∀ j, w j ≤ M) {u : Fin k → ℝ}
    (hu : ∑ a, u a ^ 2 = 1) : variance A u ≤ M := by
  obtain ⟨h1, h2⟩ := spectral hV hA u
  rw [h2]
  calc ∑ j, w j * (∑ a, V a j * u a) ^ 2 ≤ ∑ j, M * (∑ a, V a j * u a) ^ 2 :=
        Finset.sum_le_sum fun j _ => mul_le_mul_of_nonneg_right (hM j) (sq_nonneg _)
    _ = M := by rw [← Finset.mul_sum, h1, hu, mul_one]

/-- Eigenvalues and orthonormal eigenvectors exist. -/
theorem exists_eigh : ∃ eigh : Eigh, EighSpec eigh := by
  classical
  refine ⟨fun k A => if h : A.IsHermitian then
      (h.eigenvalues, fun a j => h.eigenvectorBasis j a) else (0, 0), ?_⟩
  intro k A hA
  have h : A.IsHermitian := by
    unfold IsHermitian
    rwa [conjTranspose_eq_transpose_of_trivial]
  simp only [dif_pos h]
  constructor
  · intro i j
    have := h.eigenvectorBasis.inner_eq_ite i j
    rw [← this]
    simp [PiLp.inner_apply, mul_comm]
  · intro a j
    have := congrFun (h.mulVec_eigenvectorBasis j) a
    simpa [mulVec, dotProduct] using this

end Qtune.Kalman
