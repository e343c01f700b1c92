import Verif.Matlab.ViewModel

/-! # What views on MATLAB data are to show -/

namespace Qtune.Matlab.Views

/-- A step into data: to a field or column, or to an element. -/
inductive Step
  | attr (name : String)
  | item (i : Nat)

/-- The data that a step leads to: fields of a struct with one element, columns of a table, elements of struct arrays and cells. -/
def Data.step : Data → Step → Option Data
  | .struct [fields], .attr f => fields.lookup f
  | .table columns, .attr f => columns.lookup f
  | .struct elements, .item i => (elements[i]?).map fun x => .struct [x]
  | .cell elements, .item i => elements[i]?
  | _, _ => none

/-- The data that several steps lead to. -/
def Data.walk : Data → List Step → Option Data
  | d, [] => some d
  | d, p :: ps => (d.step p).bind fun d => d.walk ps

/-- The expression of a view. -/
def View.expr? : View → Option Expr
  | .struct e | .cell e | .table e | .function e => some e
  | _ => none

/-- What can be seen of a view in a session: data other than structs, cells and tables itself, or the data of its expression, in a view for this kind of data. -/
inductive View.Shows (s : Session) : View → Data → Prop
  | data (x : Nat) : Shows s (.data (.other x)) (.other x)
  | struct (e : Expr) (l) : e.eval s = some (.struct l) → Shows s (.struct e) (.struct l)
  | cell (e : Expr) (l) : e.eval s = some (.cell l) → Shows s (.cell e) (.cell l)
  | table (e : Expr) (l) : e.eval s = some (.table l) → Shows s (.table e) (.table l)

/-- `getattr` and indexing one after the other. -/
def View.walk (s : Session) : View → List Step → Except PyErr View
  | v, [] => .ok v
  | v, .attr f :: ps => (v.attr s f).bind fun v => v.walk s ps
  | v, .item i :: ps => (v.item s (i : ℤ)).bind fun v => v.walk s ps

/-- A name as MATLAB allows: it begins with a letter. -/
def Proper : Step → Prop
  | .attr f => f.toList.head? ≠ some '_'
  | .item _ => True

/-- A step to an element of a cell. -/
def IntoCell : Data → Step → Prop
  | .cell _, .item _ => True
  | _, _ => False

/-- The way through the data does not lead into a cell. -/
def NoCell : Data → List Step → Prop
  | _, [] => True
  | d, p :: ps => ¬ IntoCell d p ∧ ∀ d', d.step p = some d' → NoCell d' ps

end Qtune.Matlab.Views
