import Verif.EndToEnd.Model
import Verif.Naming.Model

/-!
# An autotuner with several tuners that share their gradient estimators

As in `setup_tutorial.ipynb`: each tuner has its own Newton solver and evaluators; the solvers are given the
same list of estimators.
-/

namespace Qtune.EndToEnd

open Qtune.Tuner Qtune.Gradient

/-- The tuners and the estimators that their solvers share (setup_tutorial.ipynb:375-385,
solver.py:170: each solver makes a list of its own of the same objects).  The lists of estimators inside of
`tuners` are not used. -/
structure Shared (X : Type) (n : Nat) where
  tuners : Nat → OneTuner X n
  ests : List X

/-- The tuner with index `i`, its solver sees the shared estimators (autotuner.py:240-241). -/
def Shared.get {X : Type} {n : Nat} (w : Shared X n) (i : Nat) : OneTuner X n :=
  { w.tuners i with solver := { (w.tuners i).solver with ests := w.ests } }

/-- Tuner `i` has changed, and perhaps some of the estimators (autotuner.py:240-241). -/
def Shared.put {X : Type} {n : Nat} (w : Shared X n) (i : Nat) (t : OneTuner X n) : Shared X n :=
  ⟨Function.update w.tuners i t, t.solver.ests⟩

open Classical in
/-- The hierarchy with `K` tuners of class `SubsetTuner`; `outs i x` are the results of the evaluators of
tuner `i` when the gates have the voltages `x`; `I` are the methods of the estimators.  The names are
coherent (`ready_to_tune` is true); the tuned parameters are those of the tuners before
(autotuner.py:141-149).  `restart` and `change_targets` are not used here. -/
noncomputable def multiHierarchy {X : Type} {n : Nat} (I : Newton.EstI X (Fin n))
    (lstsq : Newton.Lstsq (Fin n)) (K : Nat) (outs : Nat → Volt (Fin n) → List Outcome) :
    Autotuner.Hierarchy (Shared X n) (Volt (Fin n)) (Volt (Fin n)) (List String) Unit where
  len := K
  ready := fun _ _ _ => .ok true
  read := id
  hasNaN := fun v => decide (∃ i, v i = none)
  setVolt := fun v _ => (v, .ok ())
  isTuned := fun i v w x =>
    ((w.put i (isTuned (Newton.solver I lstsq) (outs i x) v (w.get i)).1, x),
      (isTuned (Newton.solver I lstsq) (outs i x) v (w.get i)).2)
  nextVolt := fun i p w =>
    (w.put i (nextVoltages (Newton.solver I lstsq) p (w.get i)).1,
      (nextVoltages (Newton.solver I lstsq) p (w.get i)).2)
  tunedParams := fun w i =>
    Naming.tunedParameters ((List.range K).map fun j => (w.tuners j).solver.target) i
  restartTuners := fun _ w => (w, .ok ())
  nChanges := fun _ => 0
  applyTargets := fun _ w => (w, .ok ())

end Qtune.EndToEnd
