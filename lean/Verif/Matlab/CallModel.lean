import Verif.Base
import Mathlib.Logic.Function.Basic
import Mathlib.Data.List.Basic

/-!
# Model of the calls of MATLAB functions through views (mat2py.py)

The text of an expression is represented by its syntax tree.  `V` are the values in MATLAB, `get v f` is the field
`f` of the value `v` (none: MATLAB raises).  Simplifications: `util.py.my_eval`, which is not part of the repository,
evaluates in the base workspace; functions depend on their arguments only; the views on elements of cells and
struct arrays are treated like those on fields; the variable with the data of the calls is only read through
the views that `__call__` returns.
-/

namespace Qtune.Matlab

/-- The expression of a view: a variable of the base workspace, the result of a call, or a field of such a value
(mat2py.py:58-71, 240-244). -/
inductive MExpr
  | var (name : String)
  | result (id : Nat)
  | field (e : MExpr) (name : String)

/-- The base workspace: the variables of the user and the variable `MATLABViewFromPythonData`, if it exists, with
arguments and result of the calls (mat2py.py:217, 222-228). -/
structure Workspace (V : Type) where
  vars : String → Option V
  calls : Option (List (Nat × List V × Option V))

variable {V : Type}

/-- The data of a call (mat2py.py:225-228). -/
def Workspace.call? (w : Workspace V) (id : Nat) : Option (List V × Option V) :=
  w.calls.bind fun l => l.lookup id

/-- Assignment to the data of a call; the variable is created if it does not exist (mat2py.py:222-228). -/
def Workspace.setCall (w : Workspace V) (id : Nat) (r : List V × Option V) : Workspace V :=
  { w with calls := some ((id, r) :: (w.calls.getD []).filter fun e => e.1 ≠ id) }

/-- Evaluation of an expression (mat2py.py:141-143). -/
def MExpr.eval (get : V → String → Option V) (w : Workspace V) : MExpr → Option V
  | .var x => w.vars x
  | .result id => (w.call? id).bind Prod.snd
  | .field e f => (e.eval get w).bind fun v => get v f

/-- An argument of a call (mat2py.py:231-236). -/
inductive Arg (V : Type)
  | view (e : MExpr)
  | plain (v : V)

/-- `matlab.engine.MatlabExecutionError`.  mat2py.py:39, 141-143. -/
def matlabError : PyErr := .other 0

/-- The loop over the arguments (mat2py.py:231-238): plain arguments are assigned to the variable `temp`. -/
def putArgs (get : V → String → Option V) (id : Nat) :
    List (Arg V) → Workspace V → Workspace V × Except PyErr Unit
  | [], w => (w, .ok ())
  | a :: as, w =>
    let we : Workspace V × MExpr := match a with
      | .view e => (w, e)                                                                       -- line 233
      | .plain v => ({ w with vars := Function.update w.vars "temp" (some v) }, .var "temp")     -- lines 235-236
    match we.2.eval get we.1, we.1.call? id with                                                -- line 238
    | some v, some (args, r) => putArgs get id as (we.1.setCall id (args ++ [v], r))
    | _, _ => (we.1, .error matlabError)

/-- `MATLABFunctionView.__call__` for the function `f` (mat2py.py:219-248); `id` is the name that `_get_id` makes.
Simplification: the returned view; results that are neither struct, cell nor table are returned as values
instead. -/
def callView (get : V → String → Option V) (f : List V → Option V) (args : List (Arg V)) (id : Nat)
    (w : Workspace V) : Workspace V × Except PyErr MExpr :=
  match putArgs get id args (w.setCall id ([], none)) with
  | (w, .error e) => (w, .error e)
  | (w, .ok ()) =>
    match w.call? id with                                                                       -- line 242
    | none => (w, .error matlabError)
    | some (vs, _) =>
      match f vs with
      | none => (w, .error matlabError)
      | some r => (w.setCall id (vs, some r), .ok (.result id))                                 -- lines 242-248

/-- `clear_all_temporary_data` (mat2py.py:253-254). -/
def clearCalls (w : Workspace V) : Workspace V := { w with calls := none }

/-- What a program does with function views (mat2py.py:219-254). -/
inductive CallOp (V : Type)
  | call (f : List V → Option V) (args : List (Arg V))
  | clear

/-- A sequence of calls, the names of the calls are new each time (mat2py.py:81-86, assumed to be unique).  Returns
the workspace after and the outcomes of the calls. -/
def runCalls (get : V → String → Option V) : Nat → List (CallOp V) → Workspace V →
    Workspace V × List (Except PyErr MExpr)
  | _, [], w => (w, [])
  | k, .call f args :: ops, w =>
    ((runCalls get (k + 1) ops (callView get f args k w).1).1,
      (callView get f args k w).2 :: (runCalls get (k + 1) ops (callView get f args k w).1).2)
  | k, .clear :: ops, w => runCalls get k ops (clearCalls w)

end Qtune.Matlab
