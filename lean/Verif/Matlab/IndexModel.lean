import Mathlib.Data.Int.Basic
import Verif.Base

/-!
# Model of the translation of Python indices to MATLAB index texts (mat2py.py)

The text that the code generates is represented by its syntax tree: a bound is a literal,
`end` or `end - k`.  Simplification: printing and parsing of the text is left out, and so is
the question whether MATLAB accepts `end` inside of the `subsref` call into which the text
is pasted.
-/

namespace Qtune.Matlab

/-- A scalar of a MATLAB index text.  mat2py.py:74-109. -/
inductive MBound
  | lit (k : ℤ)
  | fin
  | finMinus (k : ℕ)
deriving DecidableEq, Repr

/-- A MATLAB index text: a scalar or `start:step:stop`.  mat2py.py:74-109. -/
inductive MIdx
  | scalar (b : MBound)
  | range (start : MBound) (step : ℤ) (stop : MBound)
deriving DecidableEq, Repr

/-- A Python slice with integer (or missing) entries.  Argument of mat2py.py:89-109. -/
structure PySlice where
  start : Option ℤ
  stop : Option ℤ
  step : Option ℤ

/-- An index of one dimension: the `int` and `slice` cases of mat2py.py:117-126. -/
inductive PyIdx
  | int (i : ℤ)
  | slice (s : PySlice)

/-- `_transform_int`, mat2py.py:74-78. -/
def transformInt (i : ℤ) : MIdx :=
  if i < 0 then .scalar (.finMinus i.natAbs) else .scalar (.lit (i + 1))

/-- `_transform_slice`, mat2py.py:89-109.  If `start` is given, line 97 looks up the name
`idx`, which is not defined there. -/
def transformSlice (s : PySlice) : Except PyErr MIdx :=
  let step := s.step.getD 1
  match s.start with
  | some _ => .error .nameError
  | none =>
    let start := if 0 < step then MBound.lit 1 else MBound.fin
    let stop := match s.stop with
      | none => if 0 < step then MBound.fin else MBound.lit 1
      | some k =>
        if k < 0 then MBound.finMinus k.natAbs
        else if 0 < step then MBound.lit k else MBound.lit (k + 1)
    .ok (.range start step stop)

/-- `transform_index` for an `int` or a `slice`, mat2py.py:117-122. -/
def transformIndex : PyIdx → Except PyErr MIdx
  | .int i => .ok (transformInt i)
  | .slice s => transformSlice s

/-- `_transform_tuple`, mat2py.py:112-115: one text per dimension.  Simplification: the
texts are kept in a list instead of being joined by commas. -/
def transformTuple (t : List PyIdx) : Except PyErr (List MIdx) := t.mapM transformIndex

/-- The indices that `MATLABStructView.__iter__` and `MATLABCellView.__iter__` request
(mat2py.py:174-176, 195-197), transformed by `__getitem__`. -/
def iterIndices (n : ℕ) : List (Except PyErr MIdx) :=
  (List.range n).map fun i : ℕ => transformIndex (.int (i : ℤ))

end Qtune.Matlab
