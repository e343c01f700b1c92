import Mathlib.Data.List.GetD
import Mathlib.Algebra.BigOperators.Group.List.Basic
import Verif.Base

/-!
# Model of the conversion of arrays to MATLAB (sm.py:124-161)
-/

namespace Qtune.Matlab

/-- A numpy array: shape, entries in C order (last index fastest) and dtype.
Simplification: `bytes(obj)` (which is in C order for every array) followed by
`engine.typecast` is the list of entries.  Argument in sm.py:130-148. -/
structure NpArray (α : Type) where
  dtype : String
  shape : List ℕ
  data : List α

/-- A MATLAB array: dimensions and entries in column-major order (first index fastest).  Result in sm.py:130-148. -/
structure MArray (α : Type) where
  dims : List ℕ
  data : List α

/-- The dtypes for which a MATLAB class is known, sm.py:133-137. -/
def conversions : List String := ["float64", "float32", "bool", "int32", "uint64"]

/-- MATLAB drops dimensions of size 1 at the end, down to two dimensions.
Behaviour of `reshape` and `transpose` called in sm.py:139-148. -/
def dropOnes (dims : List ℕ) : List ℕ :=
  match dims with
  | a :: b :: rest => a :: b :: (rest.reverse.dropWhile (· == 1)).reverse
  | l => l

/-- MATLAB `reshape(v, d1, d2, …)`: at least two sizes, and their product is the number of
elements.  Called in sm.py:145-148. -/
def reshape {α} (v : List α) (dims : List ℕ) : Except PyErr (MArray α) :=
  if dims.length < 2 then .error (.other 2)
  else if dims.prod = v.length then .ok ⟨dropOnes dims, v⟩
  else .error (.other 2)

/-- MATLAB `transpose(m)`: only for two dimensions.  Entry `(i, j)` of the result, at the
linear position `i + j * b` of a `b × a` array, is entry `(j, i)` of the `a × b` argument. -/
def transpose {α} [Inhabited α] (m : MArray α) : Except PyErr (MArray α) :=
  match m.dims with
  | [a, b] => .ok ⟨[b, a], (List.range (a * b)).map fun k : ℕ =>
      m.data.getD (k / b + (k % b) * a) default⟩
  | _ => .error (.other 2)

/-- The `np.ndarray` case of `to_matlab`, sm.py:130-148; `NotImplementedError` is
`other 3`. -/
def toMatlabArray {α} [Inhabited α] (a : NpArray α) : Except PyErr (MArray α) :=
  if a.dtype ∈ conversions then
    let shape := a.shape.reverse
    let shape := if shape.length = 1 then shape ++ [1] else shape
    match reshape a.data shape with
    | .error e => .error e
    | .ok casted => transpose casted
  else .error (.other 3)

end Qtune.Matlab
