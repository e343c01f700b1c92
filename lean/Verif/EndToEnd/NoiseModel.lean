import Verif.EndToEnd.Model

/-!
# An autotuner whose evaluators return something else every time

The same composition as in `Model`; the state of the experiment has, besides the voltages, the number of
evaluations made so far.
-/

namespace Qtune.EndToEnd

open Qtune.Tuner Qtune.Gradient

open Classical in
/-- The hierarchy with one `SubsetTuner` (autotuner.py:66-84, parameter_tuner.py:196-285); `outs j x` are the results
of its evaluators in the evaluation number `j` when the gates have the voltages `x`: the evaluators
(parameter_tuner.py:112-125) use the experiment, whose state they may change.  Simplification: an evaluation that is
left out because of queued steps (parameter_tuner.py:226-231) has a number, too. -/
noncomputable def noisy {X : Type} {n : Nat} (I : Newton.EstI X (Fin n)) (lstsq : Newton.Lstsq (Fin n))
    (outs : Nat → Volt (Fin n) → List Outcome) :
    Autotuner.Hierarchy (OneTuner X n) (Volt (Fin n) × Nat) (Volt (Fin n)) (List String) Unit where
  len := 1
  ready := fun _ _ _ => .ok true
  read := Prod.fst
  hasNaN := fun v => decide (∃ i, v i = none)
  setVolt := fun v x => ((v, x.2), .ok ())
  isTuned := fun _ v w x =>
    (((isTuned (Newton.solver I lstsq) (outs x.2 x.1) v w).1, (x.1, x.2 + 1)),
      (isTuned (Newton.solver I lstsq) (outs x.2 x.1) v w).2)
  nextVolt := fun _ p w => nextVoltages (Newton.solver I lstsq) p w
  tunedParams := fun _ _ => []
  restartTuners := fun _ w => (w, .ok ())
  nChanges := fun _ => 0
  applyTargets := fun _ w => (w, .ok ())

end Qtune.EndToEnd
