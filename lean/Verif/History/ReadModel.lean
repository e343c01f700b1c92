import Verif.Base
import Mathlib.Data.List.Basic
import Mathlib.Data.String.Basic
import Mathlib.Data.List.Sort

/-!
# Model of `read_files` (history.py:102-119) and `reevaluate_data_with_matlab` (sm_tune_qqd.py:506-517)

`V` are the objects that `from_hdf5` builds, `M` what a measurement gives.  Simplification: a file is the list of its entries, each with the outcome of
`from_hdf5`.
-/

namespace Qtune.History.Read

variable {V M : Type}

/-- The argument of `read_files`: one name or several (history.py:103-106). -/
inductive Files
  | one (name : String)
  | many (names : List String)

/-- history.py:103-106. -/
def Files.toList : Files → List String
  | .one n => [n]
  | .many l => l

/-- The entries of a file whose names do not begin with `#` (history.py:112-117), in the order of the file, until one cannot be read. -/
def readEntries : List (String × Except PyErr V) → Except PyErr (List (String × V))
  | [] => .ok []
  | (k, v) :: es =>
    if k.toList.head? = some '#' then readEntries es
    else match v with
      | .error e => .error e
      | .ok v => match readEntries es with
        | .error e => .error e
        | .ok l => .ok ((k, v) :: l)

/-- The loop over the files (history.py:110-117). -/
def readAll (disk : String → Except PyErr (List (String × Except PyErr V))) : List String → Except PyErr (List (String × V))
  | [] => .ok []
  | n :: ns => match disk n with
    | .error e => .error e
    | .ok es => match readEntries es with
      | .error e => .error e
      | .ok l => match readAll disk ns with
        | .error e => .error e
        | .ok l' => .ok (l ++ l')

/-- `data.sort(…)` of a list: the sorted list, and the value of the expression, `None` (history.py:119). -/
def listSort (l : List (String × V)) : List (String × V) × Option (List (String × V)) := (l.insertionSort (fun a b => a.1 ≤ b.1), none)

/-- `read_files` (history.py:102-119): `return data.sort(…)`. -/
def readFiles (disk : String → Except PyErr (List (String × Except PyErr V))) (files : Files) : Except PyErr (Option (List (String × V))) :=
  match readAll disk files.toList with
  | .error e => .error e
  | .ok data => .ok (listSort data).2

/-- An entry of the table with the data of the evaluators: NaN, or the dict that `to_hdf5` of the evaluator gave (history.py:592-598). -/
inductive Cell (V : Type)
  | nan
  | record (d : List (String × V))

/-- The attributes of a dict that a program could ask for.  Used in sm_tune_qqd.py:511-512. -/
def dictAttrs : List String :=
  ["clear", "copy", "fromkeys", "get", "items", "keys", "pop", "popitem", "setdefault", "update", "values"]

/-- The attributes of a float.  Used in sm_tune_qqd.py:511-512. -/
def floatAttrs : List String := ["as_integer_ratio", "conjugate", "fromhex", "hex", "imag", "is_integer", "real"]

/-- `cell.name` (sm_tune_qqd.py:511-512); simplification: the value of an attribute that exists plays no role. -/
def Cell.attr (c : Cell V) (name : String) : Except PyErr Unit :=
  match c with
  | .nan => if name ∈ floatAttrs then .ok () else .error .attributeError
  | .record _ => if name ∈ dictAttrs then .ok () else .error .attributeError

/-- `Series.iloc[i]` (sm_tune_qqd.py:510): `IndexError` if there is no such row, negative numbers count from the end. -/
def iloc (l : List (Cell V)) (i : Int) : Except PyErr (Cell V) :=
  match (if 0 ≤ i then l[i.toNat]? else if -i ≤ l.length then l[(l.length + i).toNat]? else none) with
  | none => .error .indexError
  | some c => .ok c

/-- The loop of `reevaluate_data_with_matlab` (sm_tune_qqd.py:509-517) over the rows `indices`; `column` is the column of the evaluator if there is one,
`measured` what the experiment has measured so far.  A number as `indices` is the list with it (lines 507-508).  Lines 512-517 are only reached if the
attributes exist; `measure k` is what `experiment.measure` gives in round `k`. -/
def reevaluate (column : Option (List (Cell V))) (measure : Nat → M) : List Int → List M → List M × Except PyErr (List M)
  | [], measured => (measured, .ok measured)
  | i :: is, measured =>
    match column with
    | none => (measured, .error .keyError)                              -- line 510
    | some l => match iloc l i with
      | .error e => (measured, .error e)
      | .ok c => match c.attr "measurements" with                        -- line 511
        | .error e => (measured, .error e)
        | .ok () => match c.attr "_last_file_names" with                 -- line 512
          | .error e => (measured, .error e)
          | .ok () => reevaluate column measure is (measured ++ [measure measured.length])

end Qtune.History.Read
