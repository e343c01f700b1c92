import Verif.Target.Model

/-!
# Assignments to attributes of solvers (solver.py:75-151, 154-263, 269-358, 507-551)

`Autotuner.restart` and `Autotuner.change_targets` assign to `current_position` and to `target` of the solvers of all tuners.  Whether such an
assignment is possible depends on the class of the solver: Python takes the property of the first class that defines the name.
-/

namespace Qtune.SolverClass

open Qtune.TargetOps

/-- The attributes of a solver that are assigned to from outside.  solver.py:84-91, 109-123. -/
inductive Name
  | currentPosition | target
deriving DecidableEq

/-- What a class body binds a name to: a property with or without a setter.  solver.py:84-91, 330-332. -/
inductive Member
  | property (setter : Bool)
deriving DecidableEq

/-- The body of a class.  solver.py:75-551. -/
abbrev Body := Name → Option Member

/-- `Solver` (solver.py:84-91, 109-123): both properties have setters. -/
def solverBody : Body := fun _ => some (.property true)
/-- `NewtonSolver` (solver.py:154-266) defines neither of them. -/
def newtonBody : Body := fun _ => none
/-- `NelderMeadSolver` defines both again (solver.py:330-332, 352-354), without setters. -/
def nelderMeadBody : Body := fun _ => some (.property false)
/-- `ForwardingSolver` (solver.py:507-557) defines neither of them. -/
def forwardingBody : Body := fun _ => none

/-- The solvers of the package, and classes of the user that inherit from one of the package or from another one of the user.
solver.py:154, 269, 507. -/
inductive Class
  | solver | newton | nelderMead | forwarding
  | derived (body : Body) (base : Class)

/-- The classes in which an attribute is looked up, in this order.  solver.py:75, 154, 269, 507. -/
def Class.bodies : Class → List Body
  | .solver => [solverBody]
  | .newton => [newtonBody, solverBody]
  | .nelderMead => [nelderMeadBody, solverBody]
  | .forwarding => [forwardingBody, solverBody]
  | .derived b c => b :: c.bodies

/-- The member that Python finds for a name: that of the first class that defines it.  solver.py:84-91, 109-123, 330-332, 352-354. -/
def find (name : Name) : List Body → Option Member
  | [] => none
  | b :: bs =>
    match b name with
    | some m => some m
    | none => find name bs

/-- A solver: its class, its position and its target.  solver.py:79-81. -/
structure Solver where
  cls : Class
  position : Series
  target : Target

/-- `solver.<name> = value`: the setter is executed if there is one; a property without setter raises `AttributeError`.  A setter that the user
has written is taken to do the same as that of `Solver`; a name without property, which cannot occur here, would be bound to the value.
solver.py:84-91, 109-123. -/
def assign (name : Name) (setter : Solver → Solver × Except PyErr Unit) (s : Solver) : Solver × Except PyErr Unit :=
  match find name s.cls.bodies with
  | some (.property false) => (s, .error .attributeError)
  | _ => setter s

/-- `solver.current_position = v` (solver.py:88-91). -/
def setPosition (v : Series) : Solver → Solver × Except PyErr Unit :=
  assign .currentPosition fun s => ({ s with position := overwrite s.position v }, .ok ())

/-- `solver.target = changes` (solver.py:113-123). -/
def setTarget (c : List (Column × Series)) : Solver → Solver × Except PyErr Unit :=
  assign .target fun s => ({ s with target := (changeTarget s.target c).1 }, (changeTarget s.target c).2)

/-- The loop of `Autotuner.restart` (autotuner.py:299-300; parameter_tuner.py:181-183, solver.py:106-107, 260-263), as far as the solvers are
concerned.  Simplification: the restart of the gradient estimators (`Verif/Gradient`) does not raise. -/
def restartSolvers (v : Series) : List Solver → List Solver × Except PyErr Unit
  | [] => ([], .ok ())
  | s :: ss =>
    match setPosition v s with
    | (s', .error e) => (s' :: ss, .error e)
    | (s', .ok ()) => (s' :: (restartSolvers v ss).1, (restartSolvers v ss).2)

/-- The loop of `Autotuner.change_targets` (autotuner.py:216-217; parameter_tuner.py:125-127); the assertion before it has made sure that there are
at least as many tuners as changes. -/
def retargetSolvers : List (List (Column × Series)) → List Solver → List Solver × Except PyErr Unit
  | [], ss => (ss, .ok ())
  | _ :: _, [] => ([], .error .indexError)
  | c :: cs, s :: ss =>
    match setTarget c s with
    | (s', .error e) => (s' :: ss, .error e)
    | (s', .ok ()) => (s' :: (retargetSolvers cs ss).1, (retargetSolvers cs ss).2)

/-- What the two methods change of an autotuner (autotuner.py:66-73). -/
structure Auto where
  solvers : List Solver
  index : Nat
  pending : Option Series

/-- `Autotuner.restart` (autotuner.py:293-300); `v` are the voltages that the experiment reports. -/
def restart (v : Series) (a : Auto) : Auto × Except PyErr Unit :=
  (⟨(restartSolvers v a.solvers).1, 0, none⟩, (restartSolvers v a.solvers).2)

/-- `Autotuner.change_targets` (autotuner.py:208-219). -/
def changeTargets (cs : List (List (Column × Series))) (a : Auto) : Auto × Except PyErr Unit :=
  if a.solvers.length < cs.length then (a, .error .assertionError)
  else
    match retargetSolvers cs a.solvers with
    | (ss, .error e) => ({ a with solvers := ss }, .error e)
    | (ss, .ok ()) => (⟨ss, 0, none⟩, .ok ())

end Qtune.SolverClass
