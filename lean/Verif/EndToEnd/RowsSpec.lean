import Verif.EndToEnd.HierarchyModel
import Verif.History.Spec

/-! # Where the numbers in the rows of a history come from -/

namespace Qtune.EndToEnd

open Qtune.Tuner Qtune.History

variable {X : Type} {n : Nat}

/-- The columns of the history for a parameter: its value and its variance (history.py:125-126). -/
inductive Quantity
  | value (parameter : String)
  | variance (parameter : String)
  deriving DecidableEq

/-- The parameter has a set point: only such parameters of a `SubsetTuner` are recorded (history.py:545-549). -/
def hasSetPoint (T : Target) (l : String) : Bool := T.any fun r => r.name == l && r.desired.isSome

/-- What the history reads of a hierarchy of `SubsetTuner`s (history.py:536-554): `last_voltages` of the first tuner and, of
every tuner, those `last_parameters_and_variances` that have a set point.  Not modelled here: gradients. -/
def rowReader : Reader (Shared X n) (Volt (Fin n)) Quantity Val where
  lastVoltages := fun w => (w.tuners 0).lastVoltage
  cols := fun w i =>
    ((w.tuners i).lastValues.filter fun e => hasSetPoint (w.tuners i).solver.target e.1).map
      (fun e => (.value e.1, e.2)) ++
    ((w.tuners i).lastVariances.filter fun e => hasSetPoint (w.tuners i).solver.target e.1).map
      (fun e => (.variance e.1, e.2))

/-- An evaluator of tuner `i` that is called while the gates have the voltages `v` reports `z` for this column. -/
def Reports (outs : Nat → Volt (Fin n) → List Outcome) (i : Nat) (v : Volt (Fin n)) (c : Quantity) (z : Val) : Prop :=
  ∃ p vars, Except.ok (p, vars) ∈ outs i v ∧
    match c with
    | .value l => (l, z) ∈ p
    | .variance l => (l, z) ∈ vars

/-- The number `y` in column `c` of a row with voltages `v` was measured at these voltages: `y` is what an evaluator of one
of the tuners reports there, divided by the rescaling factor of the parameter (its square for a variance); or `y` is `NaN`. -/
def RowMeasuredAt (T : Nat → Target) (outs : Nat → Volt (Fin n) → List Outcome) (K : Nat) (v : Volt (Fin n))
    (c : Quantity) (y : Val) : Prop :=
  y = none ∨ ∃ i < K, ∃ z, Reports outs i v c z ∧
    match c with
    | .value l => y = Val.div z (factor (T i) l)
    | .variance l => y = Val.div z (Val.mul (factor (T i) l) (factor (T i) l))

end Qtune.EndToEnd
