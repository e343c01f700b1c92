import Verif.Matlab.IndexModel
import Mathlib.Data.List.Basic
import Mathlib.Tactic.Tauto

/-!
# Model of the views on MATLAB data (mat2py.py:26-206)

The text of an expression is represented by its syntax tree.  Simplifications: arrays of one dimension; indices that are integers; functions are
known by their name; `util.py.my_eval`, which is not part of the repository, evaluates in the base workspace.
-/

namespace Qtune.Matlab.Views

/-- Data in MATLAB: struct arrays (a struct is an array with one element), cells, tables and everything else.  mat2py.py:45-52. -/
inductive Data
  | struct (elements : List (List (String × Data)))
  | cell (elements : List Data)
  | table (columns : List (String × Data))
  | other (x : Nat)

/-- The expression of a view (mat2py.py:59-72, 203). -/
inductive Expr
  | var (name : String)
  /-- `subsref(…, struct('type', {'.'}, 'subs', {'field'}))` -/
  | field (e : Expr) (name : String)
  /-- `subsref(…, struct('type', {'()'}, 'subs', {{index}}))` -/
  | item (e : Expr) (index : MIdx)
  /-- `subsref(…, struct('type', {'{}'}, 'subs', {'index'}))`: the index in quotation marks -/
  | cellItem (e : Expr) (text : List Char)
  /-- `….field` -/
  | column (e : Expr) (name : String)

/-- The session of MATLAB: variables and names of functions.  `codes` tells what MATLAB makes of a text as subscript: it uses the codes of the
characters, or it raises; both is considered.  mat2py.py:26-52. -/
structure Session where
  vars : String → Option Data
  functions : List String
  codes : Bool

/-- A subscript without `end`, which MATLAB does not accept outside of an index (mat2py.py:59-60, 74-78). -/
def MIdx.literal : MIdx → Option ℤ
  | .scalar (.lit k) => some k
  | _ => none

/-- Evaluation of an expression; `none`: MATLAB raises (mat2py.py:141-143).  The first value, if the subscript of a cell denotes several. -/
def Expr.eval (s : Session) : Expr → Option Data
  | .var x => s.vars x
  | .field e f =>
    match e.eval s with
    | some (.struct [fields]) => fields.lookup f
    | some (.table columns) => columns.lookup f
    | _ => none
  | .item e i =>
    match e.eval s, MIdx.literal i with
    | some (.struct elements), some k =>
      if 1 ≤ k then (elements[(k - 1).toNat]?).map fun x => .struct [x] else none
    | _, _ => none
  | .cellItem e text =>
    match e.eval s with
    | some (.cell elements) =>
      if s.codes && text.all (fun c => decide (c.toNat ≤ elements.length)) then
        text.head?.bind fun c => elements[c.toNat - 1]?
      else none
    | _ => none
  | .column e f =>
    match e.eval s with
    | some (.table columns) => columns.lookup f
    | some (.struct [fields]) => fields.lookup f
    | _ => none

/-- What `make_view` returns (mat2py.py:26-52). -/
inductive View
  | function (e : Expr)
  | struct (e : Expr)
  | cell (e : Expr)
  | table (e : Expr)
  /-- not a view, but the data that MATLAB returned -/
  | data (d : Data)
  /-- the generator of mat2py.py:166: expression of the struct array, its length when the generator was made, and the field -/
  | generator (e : Expr) (n : Nat) (field : String)

/-- `matlab.engine.MatlabExecutionError`.  mat2py.py:39, 141-143. -/
def matlabError : PyErr := .other 0

/-- Lines 33-38: there is a function with this name.  mat2py.py:33-38. -/
def isFunction (s : Session) : Expr → Bool
  | .var x => s.functions.contains x
  | _ => false

/-- `make_view` (mat2py.py:26-52): first it asks whether there is a function with this name (lines 33-38). -/
def makeView (s : Session) (e : Expr) : Except PyErr View :=
  if isFunction s e then .ok (.function e)
  else
    match e.eval s with
    | none => .error matlabError                                                    -- line 45
    | some (.struct _) => .ok (.struct e)                                           -- lines 45-46
    | some (.cell _) => .ok (.cell e)                                               -- lines 47-48
    | some (.table _) => .ok (.table e)                                             -- lines 49-50
    | some d => .ok (.data d)                                                       -- line 52

/-- The text of `_transform_int` (mat2py.py:74-78). -/
def indexText (i : ℤ) : List Char :=
  if i < 0 then "end - ".toList ++ Nat.toDigits 10 i.natAbs else Nat.toDigits 10 (i + 1).toNat

/-- `'name' in dir(view)` for names without underscore (mat2py.py:178-179, 205-206): fields and columns only. -/
def hasName (s : Session) (e : Expr) (f : String) : Option Bool :=
  match e.eval s with
  | some (.struct elements) => some (elements.any fun x => (x.map Prod.fst).contains f)
  | some (.table columns) => some ((columns.map Prod.fst).contains f)
  | _ => none

/-- `getattr(view, f)` (mat2py.py:155-166, 198-203).  Simplification: the attributes that a data object, a function view or a cell view has in
Python are left out. -/
def View.attr (s : Session) (f : String) : View → Except PyErr View
  | .struct e =>
    if f.toList.head? = some '_' then .error .attributeError                        -- lines 156-157
    else if f = "getdoc" ∨ f = "next" then                                          -- lines 158-161
      match hasName s e f with
      | none => .error matlabError
      | some false => .error .attributeError
      | some true => go e
    else go e
  | .table e =>
    if f.toList.head? = some '_' then .error .attributeError                        -- lines 199-200
    else if f = "getdoc" then                                                       -- lines 201-202
      match hasName s e f with
      | none => .error matlabError
      | some false => .error .attributeError
      | some true => makeView s (.column e f)
    else makeView s (.column e f)                                                   -- line 203
  | _ => .error .attributeError
where
  /-- Lines 162-166.  mat2py.py:162-166. -/
  go (e : Expr) : Except PyErr View :=
    match e.eval s with
    | none => .error matlabError
    | some (.struct elements) =>
      if elements.length = 1 then makeView s (.field e f) else .ok (.generator e elements.length f)
    | some _ => makeView s (.field e f)

/-- `view[i]` (mat2py.py:168-171, 183-187): an element of a struct array is not evaluated. -/
def View.item (s : Session) (i : ℤ) : View → Except PyErr View
  | .struct e => .ok (.struct (.item e (transformInt i)))
  | .cell e => makeView s (.cellItem e (indexText i))
  | _ => .error .typeError

/-- `len(view)` (mat2py.py:152-153).  Simplification: tables are left out. -/
def View.length (s : Session) : View → Except PyErr Nat
  | .struct e =>
    match e.eval s with
    | some (.struct elements) => .ok elements.length
    | _ => .error matlabError
  | .cell e =>
    match e.eval s with
    | some (.cell elements) => .ok elements.length
    | _ => .error matlabError
  | _ => .error .typeError

/-- `list(view)` (mat2py.py:173-175, 195-197, 166): the elements, or the attributes of the elements if it is the generator of line 166. -/
def View.list (s : Session) : View → Except PyErr (List View)
  | .generator e n f => (List.range n).mapM fun i : Nat => ((View.struct e).item s i).bind (View.attr s f)
  | v =>
    match v.length s with
    | .error e => .error e
    | .ok n => (List.range n).mapM fun i : Nat => v.item s i

end Qtune.Matlab.Views
