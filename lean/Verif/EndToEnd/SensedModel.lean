import Verif.EndToEnd.HierarchyModel
import Verif.SensingDot.Model
import Verif.Target.Model

/-!
# An autotuner whose first tuner is the tuner of the sensing dot

The other tuners are those of `HierarchyModel`.  The sensing dot tuner has a forwarding solver
(solver.py:507-557), whose suggestions mention only its own gates.
-/

namespace Qtune.EndToEnd

open Qtune.Tuner Qtune.Gradient

/-- The voltages as a Series, labelled with the names of the gates (experiment.py:71). -/
def labelled {n : Nat} (gate : Fin n → String) (v : Volt (Fin n)) : Series := List.ofFn fun j => (gate j, v j)

/-- `ForwardingSolver` (solver.py:507-557, 88-91) as the sensing dot tuner sees it; `gate` are the names of
the gates of the experiment. -/
noncomputable def forwarding {n : Nat} (gate : Fin n → String) : SolverI TargetOps.Forwarding (Fin n) where
  target := fun f => f.target
  setPosition := fun v f => { f with current := TargetOps.overwrite f.current (labelled gate v) }
  update := fun v values variances f => f.update (labelled gate v) values variances
  suggest := fun _ f => (f, .ok fun j => f.suggest.lookup (gate j))

/-- The tuner of the sensing dot and the other tuners (autotuner.py:66-84). -/
structure Sensed (X : Type) (n : Nat) where
  dot : SensingDot.SDTuner TargetOps.Forwarding (Fin n)
  rest : Shared X n

open Classical in
/-- The hierarchy with a `SensingDotTuner` at index 0 and `K` tuners of class `SubsetTuner` after it;
`cheap x`, `expensive x` and `outs i x` are the results of the evaluators when the gates have the voltages
`x`.  A suggestion mentions only some of the gates, `set_gate_voltages` sets those
(autotuner.py:243-291, experiment.py:71-82).  The names are coherent (`ready_to_tune` is true); `restart` and
`change_targets` are not used here. -/
noncomputable def sensedHierarchy {X : Type} {n : Nat} (gate : Fin n → String)
    (cheap expensive : Volt (Fin n) → List Outcome) (I : Newton.EstI X (Fin n))
    (lstsq : Newton.Lstsq (Fin n)) (K : Nat) (outs : Nat → Volt (Fin n) → List Outcome) :
    Autotuner.Hierarchy (Sensed X n) (Volt (Fin n)) (Fin n → Option Val) (List String) Unit where
  len := K + 1
  ready := fun _ _ _ => .ok true
  read := fun x j => some (x j)
  hasNaN := fun v => decide (∃ j, v j = some none)
  setVolt := fun v x => (overlay x v, .ok ())
  isTuned := fun i v w x =>
    match i with
    | 0 =>
      ((⟨(SensingDot.isTuned (forwarding gate) (cheap x) (expensive x) (fun j => (v j).join) w.dot).1,
          w.rest⟩, x),
        (SensingDot.isTuned (forwarding gate) (cheap x) (expensive x) (fun j => (v j).join) w.dot).2.2)
    | i + 1 =>
      ((⟨w.dot, w.rest.put i
          (isTuned (Newton.solver I lstsq) (outs i x) (fun j => (v j).join) (w.rest.get i)).1⟩, x),
        (isTuned (Newton.solver I lstsq) (outs i x) (fun j => (v j).join) (w.rest.get i)).2)
  nextVolt := fun i p w =>
    match i with
    | 0 => (⟨(SensingDot.nextVoltages (forwarding gate) p w.dot).1, w.rest⟩,
        (SensingDot.nextVoltages (forwarding gate) p w.dot).2)
    | i + 1 => (⟨w.dot, w.rest.put i (nextVoltages (Newton.solver I lstsq) p (w.rest.get i)).1⟩,
        (nextVoltages (Newton.solver I lstsq) p (w.rest.get i)).2.map fun v j => some (v j))
  tunedParams := fun w i => Naming.tunedParameters
    (w.dot.solver.target :: (List.range K).map fun j => (w.rest.tuners j).solver.target) i
  restartTuners := fun _ w => (w, .ok ())
  nChanges := fun _ => 0
  applyTargets := fun _ w => (w, .ok ())

end Qtune.EndToEnd
