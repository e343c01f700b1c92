import Verif.EndToEnd.Model
import Verif.Tuner.Reload
import Verif.Autotuner.Spec

/-!
# Loading an autotuner with one tuner and a Newton solver from its file

The objects are rebuilt from the inside to the outside: estimators, solver, tuner, autotuner.
-/

namespace Qtune.EndToEnd

open Qtune.Tuner Qtune.Gradient Qtune.Autotuner

/-- The estimators of a solver, rebuilt one after the other; the first exception ends the loading
(storage.py:250-281: the elements of a list are loaded in their order). -/
def reloadAll {X : Type} (reload : X → Except PyErr X) : List X → Except PyErr (List X)
  | [] => .ok []
  | e :: es =>
    match reload e with
    | .error err => .error err
    | .ok e' =>
      match reloadAll reload es with
      | .error err => .error err
      | .ok es' => .ok (e' :: es')

/-- `NewtonSolver(**solver.to_hdf5())` (solver.py:254-258 and 159-181); `reload` rebuilds an estimator. -/
def reloadSolver {X : Type} {n : Nat} (reload : X → Except PyErr X) (s : Newton.State X (Fin n)) :
    Except PyErr (Newton.State X (Fin n)) :=
  match reloadAll reload s.ests with
  | .error e => .error e
  | .ok ests => Newton.new s.target ests s.gates s.pos (some s.values)

/-- `SubsetTuner(**tuner.to_hdf5())` with the rebuilt solver (parameter_tuner.py:185-193, 279-285 and 32-95,
199-216).  `params` are the parameters of the evaluators, which are rebuilt, too (C70). -/
noncomputable def reloadTuner {X : Type} {n : Nat} (I : Newton.EstI X (Fin n)) (lstsq : Newton.Lstsq (Fin n))
    (params : List String) (reload : X → Except PyErr X) (t : OneTuner X n) : Except PyErr (OneTuner X n) :=
  match reloadSolver reload t.solver with
  | .error e => .error e
  | .ok s => construct (Newton.solver I lstsq) { save params t with solver := s }

/-- The newest file that a log tells of. -/
def newestSaved {W V P : Type} : List (Event W V P) → Option (Snapshot W V)
  | [] => none
  | .saved p :: log => (newestSaved log).orElse fun _ => some p
  | _ :: log => newestSaved log

/-- The autotuner of the new process: loaded from the newest file (autotuner.py:37-64, 297-309, every tuner by `load`;
index, status and pending voltages are taken over, C14), or set up again if there is no file yet. -/
def recovered {W V P : Type} (load : W → Except PyErr W) (first : Snapshot W V) (log : List (Event W V P)) :
    Except PyErr (Snapshot W V) :=
  match newestSaved log with
  | none => .ok first
  | some p =>
    match load p.tuners with
    | .error e => .error e
    | .ok w => .ok { p with tuners := w }

end Qtune.EndToEnd
