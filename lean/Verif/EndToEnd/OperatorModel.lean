import Verif.EndToEnd.HierarchyModel
import Verif.Target.Model

/-!
# `restart` and `change_targets` of an autotuner with several tuners

The hierarchy of `HierarchyModel` with the methods that an operator calls between two calls of `iterate`.
-/

namespace Qtune.EndToEnd

open Qtune.Tuner Qtune.Gradient Qtune.TargetOps

variable {X : Type} {n : Nat}

open Classical in
/-- `ParameterTuner.restart` and `NewtonSolver.restart` (parameter_tuner.py:105-111, 181-183,
solver.py:88-91, 260-263).  The setter of the last voltages assigns nothing unless there are none yet: the index
is intersected with the values of the new voltages.  `reset` is `restart` of an estimator.
Simplification: voltages that were never assigned (`None`) are represented as NaN. -/
noncomputable def restartTuner (reset : Volt (Fin n) → X → X) (v : Volt (Fin n)) (t : OneTuner X n) :
    OneTuner X n :=
  { t with
    lastVoltage := if ∀ i, t.lastVoltage i = none then v else t.lastVoltage
    solver := { t.solver with ests := t.solver.ests.map (reset v), pos := v } }

/-- The loop of `Autotuner.restart` (autotuner.py:299-300) over the first `K` tuners. -/
noncomputable def restartAll (reset : Volt (Fin n) → X → X) (v : Volt (Fin n)) (K : Nat) (w : Shared X n) :
    Shared X n :=
  (List.range K).foldl (fun w i => w.put i (restartTuner reset v (w.get i))) w

/-- The target of tuner `i` is replaced (solver.py:113-123). -/
def Shared.setTarget (w : Shared X n) (i : Nat) (T : Target) : Shared X n :=
  ⟨Function.update w.tuners i { w.tuners i with solver := { (w.tuners i).solver with target := T } }, w.ests⟩

/-- The loop of `Autotuner.change_targets` (autotuner.py:216-217) from tuner `i` on. -/
def applyFrom : Nat → List (List (Column × Series)) → Shared X n → Shared X n × Except PyErr Unit
  | _, [], w => (w, .ok ())
  | i, c :: cs, w =>
    match changeTarget (w.tuners i).solver.target c with
    | (T, .error e) => (w.setTarget i T, .error e)
    | (T, .ok ()) => applyFrom (i + 1) cs (w.setTarget i T)

/-- The hierarchy of `HierarchyModel` with `restart` (autotuner.py:293-300) and `change_targets`
(autotuner.py:208-219). -/
noncomputable def operated (I : Newton.EstI X (Fin n)) (reset : Volt (Fin n) → X → X)
    (lstsq : Newton.Lstsq (Fin n)) (K : Nat) (outs : Nat → Volt (Fin n) → List Outcome) :
    Autotuner.Hierarchy (Shared X n) (Volt (Fin n)) (Volt (Fin n)) (List String)
      (List (List (Column × Series))) where
  len := (multiHierarchy I lstsq K outs).len
  ready := (multiHierarchy I lstsq K outs).ready
  read := (multiHierarchy I lstsq K outs).read
  hasNaN := (multiHierarchy I lstsq K outs).hasNaN
  setVolt := (multiHierarchy I lstsq K outs).setVolt
  isTuned := (multiHierarchy I lstsq K outs).isTuned
  nextVolt := (multiHierarchy I lstsq K outs).nextVolt
  tunedParams := (multiHierarchy I lstsq K outs).tunedParams
  restartTuners := fun v w => (restartAll reset v K w, .ok ())
  nChanges := List.length
  applyTargets := applyFrom 0

end Qtune.EndToEnd
