import Verif.Target.SharedModel

/-! # Tuners that have a target each -/

namespace Qtune.TargetOps.Shared

open Qtune.TargetOps

/-- One operation on tuners each of which has a target of its own: a change of tuner `i` is a change of the `i`-th
target; what happens to DataFrames of the caller does not matter. -/
def ownStep (Ts : List Target) : Op → List Target × Except PyErr Unit
  | .tuner i c =>
    match Ts[i]? with
    | some T => (Ts.set i (changeTarget T c).1, (changeTarget T c).2)
    | none => (Ts, .error .indexError)
  | .all cs => changeTargets Ts cs
  | .caller _ _ => (Ts, .ok ())

/-- Several operations and their results. -/
def ownRun : List Target → List Op → List Target × List (Except PyErr Unit)
  | Ts, [] => (Ts, [])
  | Ts, op :: ops =>
    let s := ownStep Ts op
    let r := ownRun s.1 ops
    (r.1, s.2 :: r.2)

/-- Nobody but the solvers writes to the DataFrames of the solvers. -/
def Private (refs : List Nat) (ops : List Op) : Prop :=
  ∀ r T, Op.caller r T ∈ ops → r ∉ refs

end Qtune.TargetOps.Shared
