import Verif.Autotuner.Model
import Verif.Newton.Model
import Verif.Gradient.FD

/-!
# An autotuner with one tuner, a Newton solver and gradient estimators

The models of `Autotuner`, `SubsetTuner`, `NewtonSolver` and `FiniteDifferencesGradientEstimator` are
put together.
-/

namespace Qtune.EndToEnd

open Qtune.Tuner Qtune.Gradient

/-- The finite difference estimator as it is used by the solver (gradient.py:75-224).
Simplification as in `Gradient.FD`: positions are free of NaN, NaN is read as 0. -/
noncomputable def fdI {n : Nat} (orth : Orth n) : Newton.EstI (FD n) (Fin n) where
  estimate := fun e => e.estimate.map Prod.fst
  require := fun gates _ e =>
    ((e.require orth gates).1, (e.require orth gates).2.map (Option.map fun r i => (r i).map some))
  update := fun v x y e => e.update (fun i => (v i).getD 0) x y

/-- Tuner with a Newton solver with estimators of type `X` (parameter_tuner.py:196-285,
solver.py:154-266). -/
abbrev OneTuner (X : Type) (n : Nat) := SubsetTuner (Newton.State X (Fin n)) (Fin n)

open Classical in
/-- The hierarchy with one `SubsetTuner`; `outs x` are the results of its evaluators when the gates
have the voltages `x`; `I` are the methods of its estimators.  The names are coherent (`ready_to_tune` is true); the first tuner gets no
tuned parameters (autotuner.py:141-149).  `restart` and `change_targets` are not used here. -/
noncomputable def hierarchy {X : Type} {n : Nat} (I : Newton.EstI X (Fin n)) (lstsq : Newton.Lstsq (Fin n))
    (outs : Volt (Fin n) → List Outcome) :
    Autotuner.Hierarchy (OneTuner X n) (Volt (Fin n)) (Volt (Fin n)) (List String) Unit where
  len := 1
  ready := fun _ _ _ => .ok true
  read := id
  hasNaN := fun v => decide (∃ i, v i = none)
  setVolt := fun v _ => (v, .ok ())
  isTuned := fun _ v w x =>
    (((isTuned (Newton.solver I lstsq) (outs x) v w).1, x),
      (isTuned (Newton.solver I lstsq) (outs x) v w).2)
  nextVolt := fun _ p w => nextVoltages (Newton.solver I lstsq) p w
  tunedParams := fun _ _ => []
  restartTuners := fun _ w => (w, .ok ())
  nChanges := fun _ => 0
  applyTargets := fun _ w => (w, .ok ())

end Qtune.EndToEnd
