import Verif.Matlab.PathModel

/-!
# Model of the setup of special measure (sm.py:49-62, 89-95)

Starting and connecting to engines is modelled in `Matlab/EngineModel.lean`, the path in `Matlab/PathModel.lean`.
-/

namespace Qtune.Matlab.Setup

/-- A session of MATLAB: whether there is a variable `smdata` in the base workspace, whether the global variable
`smdata` has data, which the functions of `+qtune` use (read_gate_voltages.m:5-8), how often a setup file
was executed, and the search path.  sm.py:89-122. -/
structure Session where
  base : Bool
  global : Bool
  executed : Nat
  path : Path.Engine

/-- What a file on the path of MATLAB is: a script, or a function with a number of outputs that it declares.
`base` and `global` tell which `smdata` it creates if it is executed; `fails` that it raises in the end.  sm.py:92. -/
structure File where
  isScript : Bool
  outputs : Nat
  base : Bool
  global : Bool
  fails : Bool

/-- `matlab.engine.MatlabExecutionError`.  sm.py:92. -/
def matlabError : PyErr := .other 0

/-- `getattr(engine, name)()` (sm.py:92): the engine for Python asks for one output, if `nargout` is not given.  MATLAB
refuses to call a script, or a function without output, with an output before it is executed. -/
def call (files : String → Option File) (name : String) (s : Session) : Session × Except PyErr Unit :=
  match files name with
  | none => (s, .error matlabError)
  | some f =>
    if f.isScript || f.outputs == 0 then (s, .error matlabError)
    else
      ({ s with base := s.base || f.base, global := s.global || f.global, executed := s.executed + 1 },
        if f.fails then .error matlabError else .ok ())

/-- `_init_special_measure` (sm.py:89-95): `exist('smdata')` looks in the base workspace. -/
def initSpecialMeasure (files : String → Option File) (script : Option String) (s : Session) :
    Session × Except PyErr Unit :=
  if s.base then (s, .ok ())                                                        -- line 90
  else
    match script with
    | none => (s, .ok ())                                                           -- line 91
    | some name =>
      if name = "" then (s, .ok ())                                                 -- line 91
      else
        match call files name s with                                                -- line 92
        | (s', .error e) => (s', .error e)
        | (s', .ok ()) =>
          if s'.base then (s', .ok ())                                              -- line 94
          else (s', .error (.runtimeError "Special measure setup script did not create smdata"))

/-- The constructor with an engine that was started or connected before (sm.py:61-62); the arguments after `script` are
those of `_add_qtune_to_path`. -/
def construct (files : String → Option File) (script : Option String) (own : String) (installed : Bool)
    (same : String → String → Except PyErr Bool) (overwrite : Option Bool) (s : Session) :
    Session × Except PyErr Unit :=
  match initSpecialMeasure files script s with
  | (s', .error e) => (s', .error e)
  | (s', .ok ()) =>
    match Path.addQtune own installed same overwrite s'.path with
    | (p, r) => ({ s' with path := p }, r)

end Qtune.Matlab.Setup
