import Verif.Target.Model

/-!
# Targets that are shared between solvers

A target is a DataFrame, that is an object of Python.  All solvers keep the one that they are constructed with, without
making a copy (solver.py:170, 299, 521), and the setter of `target` assigns to its entries (solver.py:123).
-/

namespace Qtune.TargetOps.Shared

open Qtune.TargetOps

/-- The contents of all DataFrames, which are identified by numbers.  solver.py:109-111. -/
abbrev Frames := Nat → Target

/-- The setter of `Solver.target` of a solver that holds the DataFrame `r` (solver.py:113-123, parameter_tuner.py:125-127). -/
def assign (h : Frames) (r : Nat) (c : List (Column × Series)) : Frames × Except PyErr Unit :=
  (Function.update h r (changeTarget (h r) c).1, (changeTarget (h r) c).2)

/-- The loop of `Autotuner.change_targets` over tuners whose solvers hold the DataFrames `refs` (autotuner.py:216-217). -/
def assignEach (h : Frames) : List Nat → List (List (Column × Series)) → Frames × Except PyErr Unit
  | _, [] => (h, .ok ())
  | [], _ :: _ => (h, .error .indexError)
  | r :: refs, c :: cs =>
    match assign h r c with
    | (h', .error e) => (h', .error e)
    | (h', .ok ()) => assignEach h' refs cs

/-- What can be done with targets: a change of one tuner (parameter_tuner.py:125-127), a call of `change_targets`
(autotuner.py:208-217), a change that somebody makes to a DataFrame. -/
inductive Op
  | tuner (i : Nat) (c : List (Column × Series))
  | all (cs : List (List (Column × Series)))
  | caller (r : Nat) (T : Target)

/-- One operation; exceptions are reported, the caller may go on.  Tuners that do not exist raise `IndexError`.
autotuner.py:208-217, parameter_tuner.py:125-127. -/
def step (refs : List Nat) (h : Frames) : Op → Frames × Except PyErr Unit
  | .tuner i c =>
    match refs[i]? with
    | some r => assign h r c
    | none => (h, .error .indexError)
  | .all cs => if cs.length ≤ refs.length then assignEach h refs cs else (h, .error .assertionError)
  | .caller r T => (Function.update h r T, .ok ())

/-- Several operations and their results.  autotuner.py:208-217, parameter_tuner.py:125-127. -/
def run (refs : List Nat) : Frames → List Op → Frames × List (Except PyErr Unit)
  | h, [] => (h, [])
  | h, op :: ops =>
    let s := step refs h op
    let r := run refs s.1 ops
    (r.1, s.2 :: r.2)

end Qtune.TargetOps.Shared
