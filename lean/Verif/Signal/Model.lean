import Verif.Base
import Mathlib.Data.Real.Basic

/-!
# Model of the signal processing in util.py (lines 66-130)

One-dimensional arrays are lists of real numbers.  Simplification: `NaN` does not occur in the data, numbers are
real; the widths are not negative.
-/

namespace Qtune.Signal

open Classical in
/-- `np.argmax` for an array that is not empty: the first position of the maximum.  Used in util.py:70, 94. -/
noncomputable def argmax : List ℝ → Option Nat
  | [] => none
  | x :: xs => match argmax xs with
    | none => some 0
    | some j => if x < xs.getD j 0 then some (j + 1) else some 0

/-- `np.argmin`.  Used in util.py:123-129. -/
noncomputable def argmin (l : List ℝ) : Option Nat := argmax (l.map fun x => -x)

/-- `round(w / 2)`: to the nearest even number if `w` is odd.  Used in util.py:70, 92. -/
def roundHalf (w : Nat) : Nat :=
  if w % 2 = 0 then w / 2 else if (w / 2) % 2 = 0 then w / 2 else w / 2 + 1

/-- The loop `for i in range(0, m): data[i] -= data[i+w]` (util.py:68-69, 85-86), which works in place. -/
noncomputable def subtractShifted (w m : Nat) (data : List ℝ) : List ℝ :=
  (List.range m).foldl (fun d i => d.set i (d.getD i 0 - d.getD (i + w) 0)) data

/-- `new_find_lead_transition_index` (util.py:66-70) for a one-dimensional array.  `squeeze` makes an array with one
element zero-dimensional, so that `len` raises `TypeError`; `np.argmax` of an empty array raises `ValueError`. -/
noncomputable def leadIndex (data : List ℝ) (w : Nat) : Except PyErr Nat :=
  if data.length = 1 then .error .typeError
  else
    let d := subtractShifted w (data.length - w - 1) data
    match argmax ((d.map abs).take (data.length - w - 1)) with
    | none => .error .valueError
    | some i => .ok (i + roundHalf w)

/-- `find_lead_transition` (util.py:73-94) for a one-dimensional array of `npoints` points: the data after the call
(the array of the caller is changed), and the index into the scan.  `n` is `int(width/scan_range*npoints)`. -/
noncomputable def findLead (data : List ℝ) (n : Nat) : List ℝ × Except PyErr Nat :=
  let y := subtractShifted n (data.length - n - 1) data
  (y, match argmax ((y.take (data.length - n - 1)).map abs) with
    | none => .error .valueError
    | some i => .ok (i + roundHalf n))

/-- `nth_diff` (util.py:97-107); `np.ndarray` with a negative size raises `ValueError`. -/
noncomputable def nthDiff (data : List ℝ) (n : Nat) : Except PyErr (List ℝ) :=
  if data.length < n then .error .valueError
  else .ok ((List.range (data.length - n)).map fun i => data.getD i 0 - data.getD (i + n) 0)

/-- `sum(data[a:b]) * 1. / float(k)`.  util.py:110-120. -/
noncomputable def windowMean (data : List ℝ) (a b k : Nat) : ℝ := ((data.take b).drop a).sum * (1 / k)

/-- `ZeroDivisionError`.  From util.py:110-120. -/
def zeroDivision : PyErr := .other 1

/-- `moving_average_filter` (util.py:110-120) for a one-dimensional array.  `smoothed[i]` raises `IndexError` if
the width exceeds the number of points, `data[0:1]` does for the zero-dimensional array that `squeeze` makes of one
point, and `1. / width` raises `ZeroDivisionError` for width 0. -/
noncomputable def movingAverage (data : List ℝ) (width : Nat) : Except PyErr (List ℝ) :=
  if 0 < width ∧ (data.length < width ∨ data.length = 1) then .error .indexError
  else if width = 0 ∧ 0 < data.length then
    .error (if data.length = 1 then .indexError else zeroDivision)
  else .ok ((List.range data.length).map fun i =>
    if i < width then windowMean data 0 (i + 1) (i + 1) else windowMean data (i - width + 1) (i + 1) width)

/-- `find_stepes_point_sensing_dot` (util.py:123-129). -/
noncomputable def findSteepest (data : List ℝ) (scanRange : ℝ) (npoints : Nat) : Except PyErr ℝ :=
  match movingAverage data 200 with
  | .error e => .error e
  | .ok d => match nthDiff d 30 with
    | .error e => .error e
    | .ok d => match movingAverage d 30 with
      | .error e => .error e
      | .ok d => match argmin d with
        | none => .error .valueError
        | some i => .ok (((i + 15 : Nat) - (npoints : ℝ) / 2) * scanRange / (npoints / 2))

end Qtune.Signal
