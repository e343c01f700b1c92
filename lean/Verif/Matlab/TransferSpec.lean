import Verif.Matlab.TransferModel

/-!
# What a transferred array should be
-/

namespace Qtune.Matlab

/-- The entry in row `i` and column `j` of a two-dimensional MATLAB array, counted from 0
(that is `m(i+1, j+1)`). -/
def MArray.entry {α} (m : MArray α) (i j : ℕ) : Option α :=
  match m.dims with
  | [r, c] => if i < r ∧ j < c then m.data[i + j * r]? else none
  | _ => none

/-- The numpy array `np.array(rows)` of rows with `c` entries each. -/
def ofRows {α} (dtype : String) (c : ℕ) (rows : List (List α)) : NpArray α :=
  ⟨dtype, [rows.length, c], rows.flatten⟩

/-- The dtypes of numpy for which there is a class in MATLAB: numbers and truth values, but not for example
`int64` or `object`. -/
def Transferable (dtype : String) : Prop :=
  dtype = "float64" ∨ dtype = "float32" ∨ dtype = "bool" ∨ dtype = "int32" ∨ dtype = "uint64"

end Qtune.Matlab
