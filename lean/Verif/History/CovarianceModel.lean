import Verif.History.Model
import Verif.Series

/-!
# Model of `History.get_gradient_covariances` (history.py:216-228)
-/

namespace Qtune.History

/-- A match of the regular expression at the beginning of the text: the two gates.  Simplification: as for `matchAt`.
history.py:222-224. -/
def matchCovarianceAt (parameter text : Name) : Option (Name × Name) :=
  if (parameter ++ ['#']).isPrefixOf text then
    let rest := text.drop (parameter.length + 1)
    let gate₁ := rest.takeWhile wordOrSpace
    match rest.dropWhile wordOrSpace with
    | '#' :: rest' =>
      let gate₂ := rest'.takeWhile wordOrSpace
      if gate₁ ≠ [] ∧ gate₂ ≠ [] ∧ "#cov".toList.isPrefixOf (rest'.dropWhile wordOrSpace) then some (gate₁, gate₂) else none
    | _ => none
  else none

/-- `regex.findall`.  Simplification: at most one match is found, which is the case for all names of columns that a
history writes.  Used in history.py:226-228. -/
def findCovariance (parameter text : Name) : List (Name × Name) :=
  (text.tails.findSome? (matchCovarianceAt parameter)).toList

/-- The label of a column: a text, or an entry of the `MultiIndex` (history.py:228). -/
inductive Label
  | text (n : Name)
  | gates (l : List (Name × Name))
deriving DecidableEq

/-- The order of `sorted(…, key=regex.findall)` for lists with one pair (history.py:226). -/
def pairsLe (a b : List (Name × Name)) : Bool :=
  match a, b with
  | x :: _, y :: _ => decide (x.1 < y.1) || (x.1 == y.1 && decide (x.2 ≤ y.2))
  | [], _ => true
  | _ :: _, [] => false

/-- `pd.DataFrame(df, columns=labels)`: the columns are looked up by their labels; those that do not exist are filled
with NaN.  A column is the list of its values.  Simplification: versions of pandas that refuse to look up a `MultiIndex` among
texts raise here.  history.py:228. -/
def reindex (rows : Nat) (frame : List (Label × List Val)) (labels : List Label) : List (Label × List Val) :=
  labels.map fun l => (l, (frame.lookup l).getD (List.replicate rows none))

/-- `get_gradient_covariances` (history.py:216-228).  `MultiIndex.from_tuples` raises for an empty list. -/
def getGradientCovariances (parameter : Name) (rows : Nat) (frame : List (Name × List Val)) :
    Except PyErr (List (Label × List Val)) :=
  let df := frame.filter fun c => !(findCovariance parameter c.1).isEmpty
  let df := df.mergeSort fun a b => pairsLe (findCovariance parameter a.1) (findCovariance parameter b.1)
  if df.isEmpty then .error .typeError
  else .ok (reindex rows (df.map fun c => (.text c.1, c.2)) (df.map fun c => .gates (findCovariance parameter c.1)))

end Qtune.History
