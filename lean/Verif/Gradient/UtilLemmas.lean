import Verif.Gradient.Util
import Mathlib.LinearAlgebra.Matrix.Basis

/-! # Helper lemmas about finite differences -/

namespace Qtune.Gradient

theorem baseDiffs_ofFn {α : Type} [Sub α] {n : Nat} (p : Fin (n + 1) → α) :
    baseDiffs (List.ofFn p) = List.ofFn fun k : Fin n => p k.succ - p 0 := by
  rw [List.ofFn_succ]
  simp [baseDiffs, List.map_ofFn, Function.comp_def]

theorem baseSums_ofFn {n : Nat} (p : Fin (n + 1) → ℝ) :
    baseSums (List.ofFn p) = List.ofFn fun k : Fin n => p k.succ + p 0 := by
  rw [List.ofFn_succ]
  simp [baseSums, List.map_ofFn, Function.comp_def]

/-- The two members of pair number `k`. -/
def fstOf {n : Nat} (k : Fin n) : Fin (2 * n) := ⟨2 * k, by omega⟩
/-- The two members of pair number `k`. -/
def sndOf {n : Nat} (k : Fin n) : Fin (2 * n) := ⟨2 * k + 1, by omega⟩

theorem pairDiffs_eq {α : Type} [Sub α] : ∀ (n : Nat) (xs : List α) (h : xs.length = 2 * n),
    pairDiffs xs = List.ofFn fun k : Fin n =>
      xs[(sndOf k : Nat)]'(by have := (sndOf k).2; omega) - xs[(fstOf k : Nat)]'(by have := (fstOf k).2; omega)
  | 0, xs, h => by
    have : xs = [] := List.eq_nil_of_length_eq_zero (by omega)
    subst this; rfl
  | n + 1, [], h => by simp at h
  | n + 1, [_], h => by simp at h; omega
  | n + 1, a :: b :: rest, h => by
    have h' : rest.length = 2 * n := by simp at h; omega
    rw [pairDiffs, pairDiffs_eq n rest h', List.ofFn_succ]
    refine congrArg₂ _ rfl ?_
    congr 1

theorem pairDiffs_ofFn {α : Type} [Sub α] {n : Nat} (p : Fin (2 * n) → α) :
    pairDiffs (List.ofFn p) = List.ofFn fun k : Fin n => p (sndOf k) - p (fstOf k) := by
  rw [pairDiffs_eq n _ (by simp)]
  simp

theorem pairSums_eq : ∀ (n : Nat) (xs : List ℝ) (h : xs.length = 2 * n),
    pairSums xs = List.ofFn fun k : Fin n =>
      xs[(sndOf k : Nat)]'(by have := (sndOf k).2; omega) + xs[(fstOf k : Nat)]'(by have := (fstOf k).2; omega)
  | 0, xs, h => by
    have : xs = [] := List.eq_nil_of_length_eq_zero (by omega)
    subst this; rfl
  | n + 1, [], h => by simp at h
  | n + 1, [_], h => by simp at h; omega
  | n + 1, a :: b :: rest, h => by
    have h' : rest.length = 2 * n := by simp at h; omega
    rw [pairSums, pairSums_eq n rest h', List.ofFn_succ]
    refine congrArg₂ _ rfl ?_
    congr 1

theorem pairSums_ofFn {n : Nat} (p : Fin (2 * n) → ℝ) :
    pairSums (List.ofFn p) = List.ofFn fun k : Fin n => p (sndOf k) + p (fstOf k) := by
  rw [pairSums_eq n _ (by simp)]
  simp

theorem columns_ofFn {n : Nat} (d : Fin n → Vec n) :
    columns (List.ofFn d) = Matrix.of fun i k => d k i := by
  ext i k
  simp [columns]

theorem vector_ofFn {n : Nat} (x : Fin n → ℝ) : vector n (List.ofFn x) = x := by
  ext k
  simp [vector]

theorem det_ne_zero_iff {n : Nat} (d : Fin n → Vec n) :
    (Matrix.of fun i k => d k i).det ≠ 0 ↔ LinearIndependent ℝ d := by
  rw [← isUnit_iff_ne_zero, ← Matrix.isUnit_iff_isUnit_det, ← Matrix.linearIndependent_cols_iff_isUnit]
  rfl

/-- A gradient `g` is recovered from the differences it causes. -/
theorem fromDiffs_exact {n : Nat} (d : Fin n → Vec n) (g : Vec n) (dv : Fin n → ℝ) (s : List ℝ)
    (hind : LinearIndependent ℝ d) (hdv : ∀ k, dv k = ∑ i, g i * d k i) :
    ∃ C, fromDiffs (List.ofFn d) (List.ofFn dv) s = .ok (g, C) := by
  unfold fromDiffs
  rw [columns_ofFn, vector_ofFn]
  have hdet := (det_ne_zero_iff d).2 hind
  simp only [hdet, if_false]
  have : dv = Matrix.vecMul g (Matrix.of fun i k => d k i) := by
    ext k; rw [hdv]; rfl
  rw [this, Matrix.vecMul_vecMul, Matrix.mul_nonsing_inv _ (isUnit_iff_ne_zero.2 hdet),
    Matrix.vecMul_one]
  exact ⟨_, rfl⟩

theorem fromDiffs_singular {n : Nat} (d : Fin n → Vec n) (dv s : List ℝ)
    (hind : ¬ LinearIndependent ℝ d) :
    fromDiffs (List.ofFn d) dv s = .error .evaluationError := by
  unfold fromDiffs
  rw [columns_ofFn]
  rw [← det_ne_zero_iff, not_not] at hind
  simp [hind]

end Qtune.Gradient
