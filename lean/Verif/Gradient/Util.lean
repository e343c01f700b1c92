import Verif.Series
import Mathlib.LinearAlgebra.Matrix.NonsingularInverse
import Mathlib.LinearAlgebra.Matrix.ToLin

/-!
# Finite differences (util.py:160-208)

Gates are numbered: a position is a vector `Fin n → ℝ` in the order of the index of the
position series.
-/

namespace Qtune.Gradient

/-- A position or gradient.  Arguments of util.py:160-208. -/
abbrev Vec (n : Nat) := Fin n → ℝ

/-- `np.stack(xs[1:]) - xs[0]` (util.py:175-176). -/
def baseDiffs {α : Type} [Sub α] : List α → List α
  | [] => []
  | x :: xs => xs.map fun y => y - x

/-- `np.stack(xs[1::2]) - np.stack(xs[::2])` (util.py:178-179) for an even number of entries. -/
def pairDiffs {α : Type} [Sub α] : List α → List α
  | a :: b :: rest => (b - a) :: pairDiffs rest
  | _ => []

/-- `np.stack(xs[1:]) + xs[0]` (util.py:192). -/
def baseSums : List ℝ → List ℝ
  | [] => []
  | x :: xs => xs.map fun y => y + x

/-- `np.stack(xs[1::2]) + np.stack(xs[::2])` (util.py:194). -/
def pairSums : List ℝ → List ℝ
  | a :: b :: rest => (b + a) :: pairSums rest
  | _ => []

/-- `np.stack(diffs).T` (util.py:175, 178): the difference vectors are the columns.  A list that is
too short, which does not occur, is filled with zeros. -/
def columns {n : Nat} (diffs : List (Vec n)) : Matrix (Fin n) (Fin n) ℝ :=
  fun i k => diffs.getD k 0 i

/-- A list of numbers as vector; see `columns` for lists that are too short.  Used for util.py:175-179. -/
def vector (n : Nat) (xs : List ℝ) : Vec n := fun k => xs.getD k 0

/-- util.py:183-196 with the differences: gradient and covariance, `EvaluationError` if the
matrix of the position differences is singular. -/
noncomputable def fromDiffs {n : Nat} (positionDiffs : List (Vec n))
    (valueDiffs varianceSums : List ℝ) : Except PyErr (Vec n × Matrix (Fin n) (Fin n) ℝ) :=
  let V := columns positionDiffs
  if V.det = 0 then .error .evaluationError
  else .ok (Matrix.vecMul (vector n valueDiffs) V⁻¹,
    V⁻¹.transpose * Matrix.diagonal (vector n varianceSums) * V⁻¹)

/-- `calculate_gradient_non_orthogonal` (util.py:160-199) with variances.  Simplification: `n`
is the size of the positions, which util.py:172 takes from `positions[0]` (`IndexError` if
there are none). -/
noncomputable def calculateGradient {n : Nat} (positions : List (Vec n)) (values variances : List ℝ) :
    Except PyErr (Vec n × Matrix (Fin n) (Fin n) ℝ) :=
  if values.length ≠ positions.length then .error .assertionError              -- line 171
  else if positions = [] then .error .indexError                               -- line 172
  else if values.length = n + 1 then                                           -- line 174
    fromDiffs (baseDiffs positions) (baseDiffs values) (baseSums variances)
  else if values.length = 2 * n then                                           -- line 177
    fromDiffs (pairDiffs positions) (pairDiffs values) (pairSums variances)
  else .error (.runtimeError "Invalid number of points")                       -- line 181

end Qtune.Gradient
