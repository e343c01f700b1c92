import Verif.Base

/-!
# Model of the classes that can be stored (storage.py:38, 48-71, 103-112, 194-238, 281)

The metaclass `HDF5Serializable` enters each class into the dict `serializables` under its name, and `from_hdf5` looks the class of a stored
object up there.  Classes are those of the package or classes of the user; the latter are numbered in the order of their definitions.
-/

namespace Qtune.Storage.Classes

/-- A class object.  storage.py:60-66. -/
inductive Cls
  | package (module name : String)
  | user (number : Nat) (name : String)
deriving DecidableEq

/-- `__name__`.  storage.py:103. -/
def Cls.name : Cls → String
  | .package _ n => n
  | .user _ n => n

/-- A session of Python: the dict `serializables`, the modules that are loaded, and how many classes the user has defined.  storage.py:38. -/
structure Session where
  known : String → Option Cls
  modules : List String
  count : Nat

/-- A new session.  storage.py:38. -/
def Session.new : Session := ⟨fun _ => none, [], 0⟩

/-- `serializables[name] = cls` (storage.py:65). -/
def Session.enter (s : Session) (c : Cls) : Session := { s with known := fun n => if n = c.name then some c else s.known n }

/-- The user defines a class (storage.py:60-71): it is entered, then `AttributeError` is raised if the class has no method `to_hdf5` of its
own.  Otherwise the statement `class` binds the name to the class. -/
def Session.define (s : Session) (name : String) (own : Bool) : Session × Except PyErr Cls :=
  let c := Cls.user s.count name
  let s' := { s.enter c with count := s.count + 1 }
  (s', if own then .ok c else .error .attributeError)

/-- The classes of a module in the order of their definitions; all of them have a method `to_hdf5`.  experiment.py:30, evaluator.py:28-771,
kalman_gradient.py:25, gradient.py:32-374, solver.py:75-507, parameter_tuner.py:29-288, autotuner.py:30, sm.py:227, sm_tune_qqd.py:33-454. -/
def classesOf : String → List String
  | "experiment" => ["Measurement"]
  | "evaluator" => ["Evaluator", "FittingEvaluator", "LeadTunnelTimePrefitVersion", "LeadTunnelTimeByLeadScan", "InterDotTCByLineScan",
      "NewLoadTime", "LeadTransition", "SensingDot1D", "SensingDot2D", "AveragingEvaluator"]
  | "kalman_gradient" => ["KalmanGradient"]
  | "gradient" => ["GradientEstimator", "FiniteDifferencesGradientEstimator", "KalmanGradientEstimator", "SelfInitializingKalmanEstimator"]
  | "solver" => ["Solver", "NewtonSolver", "NelderMeadSolver", "ForwardingSolver"]
  | "parameter_tuner" => ["ParameterTuner", "SubsetTuner", "SensingDotTuner"]
  | "autotuner" => ["Autotuner"]
  | "sm" => ["MatlabEvaluator"]
  | "sm_tune_qqd" => ["QQDMeasurement", "SMQQDPassThru", "QQDLine", "QQDLead", "QQDSensor1D", "QQDSensor2D", "QQDCharge", "QQDDistTP", "QQDResp"]
  | _ => []

/-- The modules that are loaded by `import qtune.<module>`, the module itself last.  The import statements of autotuner.py:21-26,
evaluator.py:17-25, experiment.py:22-23, gradient.py:23-25, solver.py:25-27, parameter_tuner.py:22-24, kalman_gradient.py:22, sm.py:31-34,
sm_tune_qqd.py:23-27, basic_dqd.py:20, history.py:29-35, gui.py:32-33.  Modules without such classes of their own are left out where they are
imported by others.  Simplification: the imports succeed; see C186 for `sm` and `sm_tune_qqd`. -/
def imports : String → List String
  | "evaluator" => ["experiment", "evaluator"]
  | "gradient" => ["kalman_gradient", "gradient"]
  | "solver" => ["kalman_gradient", "gradient", "solver"]
  | "parameter_tuner" => ["experiment", "evaluator", "kalman_gradient", "gradient", "solver", "parameter_tuner"]
  | "autotuner" => ["experiment", "evaluator", "kalman_gradient", "gradient", "solver", "parameter_tuner", "autotuner"]
  | "history" => ["experiment", "evaluator", "kalman_gradient", "gradient", "solver", "parameter_tuner", "autotuner"]
  | "gui" => ["experiment", "evaluator", "kalman_gradient", "gradient", "solver", "parameter_tuner", "autotuner"]
  | "basic_dqd" => ["experiment"]
  | "sm" => ["experiment", "evaluator", "sm"]
  | "sm_tune_qqd" => ["experiment", "evaluator", "sm", "kalman_gradient", "gradient", "solver", "parameter_tuner", "autotuner", "sm_tune_qqd"]
  | m => [m]

/-- A module is executed if it was not loaded before (Python).  storage.py:48-53. -/
def Session.execute (s : Session) (m : String) : Session :=
  if m ∈ s.modules then s
  else { (classesOf m).foldl (fun s n => s.enter (.package m n)) s with modules := m :: s.modules }

/-- `import qtune.<module>`.  storage.py:48-53. -/
def Session.imp (s : Session) (m : String) : Session := (imports m).foldl Session.execute s

/-- `_import_all` (storage.py:48-53). -/
def Session.importAll (s : Session) : Session := ["autotuner", "evaluator", "experiment", "gradient", "solver"].foldl Session.imp s

/-- What is stored for an instance of a class that is no dict, list or tuple: the name of the class, if it is known (storage.py:103-105);
otherwise `RuntimeError` (storage.py:153; simplification: it is no array, text or number either). -/
def Session.store (s : Session) (c : Cls) : Except PyErr String :=
  if (s.known c.name).isSome then .ok c.name else .error (.runtimeError "")

/-- What a group with the given `#type` is read as. -/
inductive Loaded
  | dict
  | inst (c : Cls)
  | nothing          -- `None`, with a warning
  | list
  | tuple
deriving DecidableEq

/-- `from_hdf5` for a group with this `#type` (storage.py:194-238, 281); the values inside and the constructor are left out. -/
def Session.load (s : Session) (type : String) : Session × Loaded :=
  let s := s.importAll                                                               -- line 281
  (s, if type = "dict" then .dict                                                    -- line 194
    else match s.known type with
      | some c => .inst c                                                            -- lines 202-218
      | none => if type = "list" then .list else if type = "tuple" then .tuple else .nothing)   -- lines 220-238

/-- What happens in a session. -/
inductive Act
  | define (name : String) (own : Bool)
  | imp (module : String)
  | load (type : String)

/-- One of these.  storage.py:48-71, 281. -/
def Session.step (s : Session) : Act → Session
  | .define n own => (s.define n own).1
  | .imp m => s.imp m
  | .load t => (s.load t).1

/-- All of them.  storage.py:48-71, 281. -/
def Session.run (s : Session) (as : List Act) : Session := as.foldl Session.step s

end Qtune.Storage.Classes
