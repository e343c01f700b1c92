import Verif.Newton.Model
import Mathlib.LinearAlgebra.Matrix.Rank
import Mathlib.Algebra.BigOperators.Fin

/-! # Specification of the Newton step -/

namespace Qtune.Newton

variable {E ι : Type} [DecidableEq ι]

/-- First order change of a parameter with gradient `g` when the given gates are moved by `x`. -/
def change (gates : List ι) (g x : ι → ℝ) : ℝ := ∑ i ∈ gates.toFinset, g i * x i

/-- Squared length of a step. -/
def lengthSq (gates : List ι) (x : ι → ℝ) : ℝ := ∑ i ∈ gates.toFinset, x i ^ 2

/-- Sum of the squared residuals of a linear system. -/
def residual (gates : List ι) (rows : List (ι → ℝ)) (rhs : List ℝ) (x : ι → ℝ) : ℝ :=
  ((rows.zip rhs).map fun gb => (change gates gb.1 x - gb.2) ^ 2).sum

/-- The shortest least squares solution. -/
structure IsLstsq (gates : List ι) (rows : List (ι → ℝ)) (rhs : List ℝ) (x : ι → ℝ) : Prop where
  least : ∀ y, residual gates rows rhs x ≤ residual gates rows rhs y
  shortest : ∀ y, residual gates rows rhs y = residual gates rows rhs x →
    lengthSq gates x ≤ lengthSq gates y

/-- What is assumed of `np.linalg.lstsq`: on numbers without NaN, and with as many rows as entries
on the right hand side, it computes the shortest least squares solution. -/
def LstsqSpec (lstsq : Lstsq ι) : Prop :=
  ∀ (gates : List ι) (rows : List (ι → ℝ)) (rhs : List ℝ), rows.length = rhs.length →
    ∃ x : ι → ℝ, lstsq gates (rows.map fun g i => some (g i)) rhs = some (fun i => some (x i)) ∧
      IsLstsq gates rows rhs x

/-- The gradients are linearly independent on the gates. -/
def FullRowRank {m : Nat} (gates : List ι) (G : Fin m → ι → ℝ) : Prop :=
  LinearIndependent ℝ fun k => fun i : {i // i ∈ gates} => G k i

end Qtune.Newton
