import Verif.EndToEnd.HierarchyModel

/-!
# Calls of `iterate` that are interrupted by exceptions

Measuring and setting voltages talks to instruments, so that it may raise any exception at any time.  The caller
catches the exception and calls `iterate` again.
-/

namespace Qtune.EndToEnd

open Qtune.Tuner Qtune.Autotuner

variable {X : Type} {n : Nat}

/-- What goes wrong during one call of `iterate` (autotuner.py:243-291). -/
inductive Fault (n : Nat)
  /-- nothing -/
  | none
  /-- the evaluator number `k` raises `e` if the evaluators are called (parameter_tuner.py:157-163; for a number that is
  too large: something raises after the last evaluator) -/
  | evaluator (k : Nat) (e : PyErr)
  /-- `set_gate_voltages` raises `e` if it is called and leaves the gates at the voltages `x`, for instance because
  only some of the gates have been set (experiment.py:74) -/
  | write (e : PyErr) (x : Volt (Fin n))
  /-- the state cannot be saved, `save_current_status` raises `e` (autotuner.py:227-238, 291) -/
  | save (e : PyErr)

/-- The results of the evaluators when one of them raises (parameter_tuner.py:157-163). -/
def Fault.outs (f : Fault n) (l : List Outcome) : List Outcome :=
  match f with
  | .evaluator k e => l.take k ++ [.error e]
  | _ => l

/-- Setting the voltages `v` (experiment.py:74). -/
def Fault.setVolt (f : Fault n) (v : Volt (Fin n)) : Volt (Fin n) × Except PyErr Unit :=
  match f with
  | .write e x => (x, .error e)
  | _ => (v, .ok ())

/-- The result of handing the state to the writer (autotuner.py:227-238). -/
def Fault.saving (f : Fault n) : Except PyErr Unit :=
  match f with
  | .save e => .error e
  | _ => .ok ()

/-- The tuners and the experiment during a call with the given fault (autotuner.py:243-291). -/
noncomputable def faultyHierarchy (I : Newton.EstI X (Fin n)) (lstsq : Newton.Lstsq (Fin n)) (K : Nat)
    (outs : Nat → Volt (Fin n) → List Outcome) (f : Fault n) :
    Hierarchy (Shared X n) (Volt (Fin n)) (Volt (Fin n)) (List String) Unit :=
  { multiHierarchy I lstsq K (fun i x => f.outs (outs i x)) with setVolt := fun v _ => f.setVolt v }

/-- One call of `iterate` with the given fault (autotuner.py:243-291). -/
noncomputable def faultyCall (I : Newton.EstI X (Fin n)) (lstsq : Newton.Lstsq (Fin n)) (K : Nat)
    (outs : Nat → Volt (Fin n) → List Outcome) (f : Fault n)
    (s : Autotuner.State (Shared X n) (Volt (Fin n)) (Volt (Fin n))) :
    Autotuner.State (Shared X n) (Volt (Fin n)) (Volt (Fin n)) ×
      List (Event (Shared X n) (Volt (Fin n)) (List String)) × Except PyErr Unit :=
  iterate (faultyHierarchy I lstsq K outs f) f.saving s

/-- Calls of `iterate`, one for each of the faults; exceptions are caught and `iterate` is called again
(autotuner.py:243-291). -/
noncomputable def faultyCalls (I : Newton.EstI X (Fin n)) (lstsq : Newton.Lstsq (Fin n)) (K : Nat)
    (outs : Nat → Volt (Fin n) → List Outcome) :
    List (Fault n) → Autotuner.State (Shared X n) (Volt (Fin n)) (Volt (Fin n)) →
      Autotuner.State (Shared X n) (Volt (Fin n)) (Volt (Fin n))
  | [], s => s
  | f :: fs, s => faultyCalls I lstsq K outs fs (faultyCall I lstsq K outs f s).1

end Qtune.EndToEnd
