import Verif.Matlab.IndexModel

/-!
# Meaning of Python and MATLAB indices

Positions are counted from 0 in Python and from 1 in MATLAB; `n` is the number of elements
along the dimension.  Both are written down from the language references, independently of
the translation.
-/

namespace Qtune.Matlab

/-- The positions that `a[i]` denotes in Python. -/
def pyInt (n : ℕ) (i : ℤ) : Except PyErr (List ℤ) :=
  if 0 ≤ i ∧ i < n then .ok [i]
  else if i < 0 ∧ 0 ≤ i + n then .ok [i + n]
  else .error .indexError

/-- `range(a, b, s)`: the numbers `a, a + s, …` before `b`. -/
def pyRange (a b s : ℤ) : List ℤ :=
  (List.range (if 0 < s then (if a < b then (b - a - 1) / s + 1 else 0)
      else if s < 0 then (if b < a then (a - b - 1) / (-s) + 1 else 0) else 0).toNat).map
    fun k : ℕ => a + (k : ℤ) * s

/-- A bound of a slice is counted from the end if it is negative and then moved into
`[lo, hi]`. -/
def clip (n : ℕ) (lo hi k : ℤ) : ℤ :=
  if k < 0 then max (k + n) lo else min k hi

/-- The positions that `a[start:stop:step]` denotes in Python (`slice.indices`). -/
def pySlice (n : ℕ) (s : PySlice) : Except PyErr (List ℤ) :=
  let step := s.step.getD 1
  if step = 0 then .error .valueError
  else
    let lo : ℤ := if 0 < step then 0 else -1
    let hi : ℤ := if 0 < step then n else n - 1
    let first : ℤ := if 0 < step then lo else hi
    let last : ℤ := if 0 < step then hi else lo
    .ok (pyRange ((s.start.map (clip n lo hi)).getD first)
      ((s.stop.map (clip n lo hi)).getD last) step)

/-- The positions that an index denotes in Python. -/
def pyPositions (n : ℕ) : PyIdx → Except PyErr (List ℤ)
  | .int i => pyInt n i
  | .slice s => pySlice n s

/-- The value of a scalar of a MATLAB index text. -/
def mBound (n : ℕ) : MBound → ℤ
  | .lit k => k
  | .fin => n
  | .finMinus k => n - k

/-- The colon operator `a:s:b` of MATLAB: the numbers `a, a + s, …` up to and including
`b`; empty if `s` is zero. -/
def colon (a s b : ℤ) : List ℤ :=
  (List.range (if 0 < s then (if a ≤ b then (b - a) / s + 1 else 0)
      else if s < 0 then (if b ≤ a then (a - b) / (-s) + 1 else 0) else 0).toNat).map
    fun k : ℕ => a + (k : ℤ) * s

/-- The positions that a MATLAB index denotes; an error (`MatlabExecutionError`) if one of
them is not in `1, …, n`. -/
def mPositions (n : ℕ) (m : MIdx) : Except PyErr (List ℤ) :=
  let l : List ℤ := match m with
    | .scalar b => [mBound n b]
    | .range a s b => colon (mBound n a) s (mBound n b)
  if ∀ p : ℤ, p ∈ l → 1 ≤ p ∧ p ≤ (n : ℤ) then .ok l else .error (.other 2)

/-- Both indices denote the same elements: both fail, or the MATLAB positions are the
Python positions, counted from 1. -/
def SameElements (py ml : Except PyErr (List ℤ)) : Prop :=
  (∃ e e', py = .error e ∧ ml = .error e') ∨
    ∃ l, py = .ok l ∧ ml = .ok (l.map fun p => p + 1)

/-- The translation of an index is right for a dimension with `n` elements. -/
def Faithful (n : ℕ) (i : PyIdx) : Prop :=
  SameElements (pyPositions n i) ((transformIndex i).bind (mPositions n))

/-- Indices that are translated correctly: integers counted from the front, and slices from
one end of the dimension that do not stop behind its end (and run through to the other end
if they run backwards). -/
def Supported (n : ℕ) : PyIdx → Prop
  | .int i => 0 ≤ i
  | .slice s => s.start = none ∧
      ((0 < s.step.getD 1 ∧ ∀ k, s.stop = some k → k ≤ n) ∨
        (s.step.getD 1 < 0 ∧ s.stop = none))

end Qtune.Matlab
