import Verif.Base
import Mathlib.Data.List.Basic
import Mathlib.Data.Real.Basic

/-!
# Model of the search path of MATLAB and of the options handed to `tune.tune` (sm.py, sm_tune_qqd.py)
-/

namespace Qtune.Matlab.Path

/-- What MATLAB knows: the directories on its path that contain a package `+qtune`, the first one is used; and
whether its files can be executed.  Behaviour of `qtune.find_qtune` and `addpath` (sm.py:97-122,
find_qtune.m:1-3). -/
structure Engine where
  path : List String
  /-- warnings that have been given, sm.py:109 -/
  warned : Nat

/-- `engine.qtune.find_qtune()` (sm.py:100, 120): the directory of the package that is used, or a
`MatlabExecutionError`. -/
def Engine.find (e : Engine) : Option String := e.path.head?

/-- `engine.addpath(d)` (sm.py:111, 115): the directory becomes the first one.  `installed` tells whether it
contains the package. -/
def Engine.addpath (installed : Bool) (e : Engine) (d : String) : Engine :=
  if installed then { e with path := d :: e.path.filter (· ≠ d) } else e

/-- The check at the end (sm.py:117-122). -/
def Engine.check (e : Engine) : Engine × Except PyErr Unit :=
  match e.find with
  | some _ => (e, .ok ())
  | none => (e, .error (.runtimeError "Could not add +qtune to MATLAB path"))

/-- `_add_qtune_to_path` (sm.py:97-122); `own` is the directory of this installation, `same` is `os.path.samefile`, which
raises for directories that do not exist. -/
def addQtune (own : String) (installed : Bool) (same : String → String → Except PyErr Bool)
    (overwrite : Option Bool) (e : Engine) : Engine × Except PyErr Unit :=
  match e.find with
  | some d =>
    match same d own with
    | .error x => (e, .error x)
    | .ok true => e.check
    | .ok false =>
      if overwrite = some false then (e, .ok ())
      else
        let e' : Engine := if overwrite = none then { e with warned := e.warned + 1 } else e
        (e'.addpath installed own).check
  | none => (e.addpath installed own).check

end Qtune.Matlab.Path

namespace Qtune.Matlab.Tune

/-- Values of options of a measurement.  Values of the types of numpy are marked; `other` are objects that
are neither numbers nor text.  Options of experiment.py:34-37. -/
inductive Value
  | number (x : ℝ)
  | complex
  | text (s : String)
  | numpyNumber (x : ℝ)
  | numpyText (s : String)
  | other (tag : Nat)

/-- An `np.generic` (sm_tune_qqd.py:154). -/
def Value.numpy : Value → Bool
  | .numpyNumber _ | .numpyText _ => true
  | _ => false

/-- `to_matlab` of a numpy scalar: `float(...)` (sm.py:149-150).  Simplification: text that can be read as a
number is not. -/
def Value.toMatlab : Value → Except PyErr Value
  | .numpyNumber x => .ok (.number x)
  | .numpyText _ => .error .valueError
  | v => .ok v

/-- `float(value)` for numbers, other objects stay (sm_tune_qqd.py:114-116). -/
def Value.float : Value → Except PyErr Value
  | .number x => .ok (.number x)
  | .numpyNumber x => .ok (.number x)
  | .complex => .error .typeError
  | v => .ok v

/-- `np.float(index)` (sm_tune_qqd.py:123, 125).  Simplification: see `Value.toMatlab`. -/
def Value.index : Value → Except PyErr Value
  | .number x => .ok (.number x)
  | .numpyNumber x => .ok (.number x)
  | .text _ => .error .valueError
  | .numpyText _ => .error .valueError
  | _ => .error .typeError

/-- Options of a measurement, a dictionary in order (experiment.py:37). -/
abbrev Options := List (String × Value)

/-- The loop in `measure` that converts numpy scalars in place (sm_tune_qqd.py:153-155): the options
afterwards, also if it raises. -/
def convertNumpy : Options → Options × Except PyErr Unit
  | [] => ([], .ok ())
  | (k, v) :: l =>
    match (if v.numpy then v.toMatlab else .ok v) with
    | .error e => ((k, v) :: l, .error e)
    | .ok v' => ((k, v') :: (convertNumpy l).1, (convertNumpy l).2)

/-- Name and value pairs (sm_tune_qqd.py:113-121). -/
def pairs : Options → Except PyErr (List Value)
  | [] => .ok []
  | (k, v) :: l => do
    let x ← v.float
    let r ← pairs l
    .ok (.text k :: x :: r)

/-- The names of the arguments of `tune` (sm_tune_qqd.py:101): an option of such a name cannot be passed on. -/
def reserved : List String := ["self", "measurement_name", "index"]

/-- `tune` (sm_tune_qqd.py:101-127): the arguments with which `tune.tune` is called. -/
def tune (name : String) (index : Value) (options : Options) : Except PyErr (List Value) :=
  if options.any fun o => decide (o.1 ∈ reserved) then .error .typeError
  else do
    let p ← pairs options
    let i ← index.index
    .ok (.text name :: i :: p)

/-- `pytune` (sm_tune_qqd.py:129-138). -/
def pytune (name : String) (options : Options) : Except PyErr (List Value) :=
  match options.lookup "index" with
  | none => .error .keyError
  | some i => tune name i (options.filter fun o => o.1 ≠ "index")

/-- `measure` (sm_tune_qqd.py:149-158) up to the call of `tune.tune`: the options of the measurement afterwards
and the arguments of the call. -/
def measure (known : List String) (name : String) (options : Options) : Options × Except PyErr (List Value) :=
  if name ∈ known then
    match convertNumpy options with
    | (o, .error e) => (o, .error e)
    | (o, .ok ()) => (o, pytune name o)
  else (options, .error .valueError)

end Qtune.Matlab.Tune
