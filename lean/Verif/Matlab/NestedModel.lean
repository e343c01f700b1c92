import Mathlib.Data.Real.Basic
import Mathlib.Data.List.Dedup
import Mathlib.Data.List.Nodup
import Verif.Matlab.TransferModel

/-!
# Model of `to_matlab` for values inside each other (sm.py:124-161)

Numbers are real numbers; rounding is left out.
-/

namespace Qtune.Matlab

/-- The values that `to_matlab` distinguishes, in the order of sm.py:124-161.  `scalar x`: a numpy scalar, where `x` is what `float` of it
gives or raises; `other`: everything that has no branch, for example strings, truth values and `None`.  A value in a Series can be
anything.  The keys of dicts are strings (simplification). -/
inductive PyObj
  | float (x : ℝ)
  | int (i : ℤ)
  | series (rows : List (String × PyObj))
  | array (a : NpArray ℝ)
  | scalar (x : Except PyErr ℝ)
  | list (l : List PyObj)
  | tuple (l : List PyObj)
  | dict (items : List (String × PyObj))
  | set (l : List PyObj)
  | other

/-- What `to_matlab` returns (sm.py:124-161).  `generator`: the generator expression of line 155, which has not computed anything yet. -/
inductive MObj
  | float (x : ℝ)
  | int (i : ℤ)
  | array (m : MArray ℝ)
  | list (l : List MObj)
  | generator
  | dict (items : List (String × MObj))
  | set (l : List MObj)

/-- `series[label]`: the value, or a Series with all rows of this label if there are several (used by `dict(obj)`, sm.py:129). -/
def PyObj.ofLabel (rows : List (String × PyObj)) (label : String) : PyObj :=
  match rows.filter fun p => p.1 = label with
  | [p] => p.2
  | ps => .series ps

/-- `dict(obj)` for a Series: `keys()` and `series[key]` (sm.py:129). -/
def PyObj.dictOf (rows : List (String × PyObj)) : List (String × PyObj) :=
  (rows.map Prod.fst).dedup.map fun l => (l, PyObj.ofLabel rows l)

/-- The comprehensions of sm.py:153 and 159. -/
def convertAll {α β : Type} (f : α → Except PyErr β) : List α → Except PyErr (List β)
  | [] => .ok []
  | x :: xs =>
    match f x with
    | .error e => .error e
    | .ok y =>
      match convertAll f xs with
      | .error e => .error e
      | .ok ys => .ok (y :: ys)

/-- One entry of the comprehension of sm.py:157. -/
def convertItem {α β : Type} (f : α → Except PyErr β) (p : String × α) : Except PyErr (String × β) :=
  match f p.2 with
  | .error e => .error e
  | .ok y => .ok (p.1, y)

/-- The list `l` converted, and packed by `pack`.  sm.py:153, 157, 159. -/
def packed {β γ : Type} (pack : List β → γ) : Except PyErr (List β) → Except PyErr γ
  | .error e => .error e
  | .ok l => .ok (pack l)

/-- `to_matlab` (sm.py:124-161).  The number is how many calls inside each other the interpreter still allows; then it raises
`RecursionError`.  `NotImplementedError` is `other 3`. -/
noncomputable def toMatlab : Nat → PyObj → Except PyErr MObj
  | 0, _ => .error .recursionError
  | _ + 1, .float x => .ok (.float x)
  | _ + 1, .int i => .ok (.int i)
  | d + 1, .series rows => toMatlab d (.dict (PyObj.dictOf rows))
  | _ + 1, .array a =>
    match toMatlabArray a with
    | .error e => .error e
    | .ok m => .ok (.array m)
  | _ + 1, .scalar x =>
    match x with
    | .error e => .error e
    | .ok r => .ok (.float r)
  | d + 1, .list l => packed .list (convertAll (toMatlab d) l)
  | _ + 1, .tuple _ => .ok .generator
  | d + 1, .dict items => packed .dict (convertAll (convertItem (toMatlab d)) items)
  | d + 1, .set l => packed .set (convertAll (toMatlab d) l)
  | _ + 1, .other => .error (.other 3)

end Qtune.Matlab
