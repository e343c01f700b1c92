import Verif.Gui.Spec
import Verif.History.GapModel
import Verif.EndToEnd.Cycles

/-!
# Model of the worker of the user interface together with an autotuner (gui.py:700-727)

`Gui/Model.lean` leaves open what the worker finds.  Here it works on an autotuner, and on a history.
-/

namespace Qtune.Gui

/-- What the worker calls: `is_tuning_complete` (gui.py:710), and `iterate` with `append_autotuner` (gui.py:714-717); the second component
tells whether they return normally.  Only the worker changes the autotuner and the history (for windows that reload see
`Gui/ReloadModel.lean`). -/
structure Machine (A : Type) where
  complete : A → Bool
  iterate : A → A × Bool

/-- The user interface and the autotuner (gui.py:475-575). -/
structure Session (A : Type) where
  gui : State
  tuner : A

/-- A step of the worker, a call of a method, or a further step of the method that is being executed.
gui.py:700-773. -/
inductive SAct
  | worker
  | call (op : Op)
  | continue

variable {A : Type}

/-- What the worker finds when it reads the autotuner (gui.py:707-711). -/
def Machine.found (M : Machine A) (a : A) : Tuner := if M.complete a then .complete else .iterate

/-- One step (gui.py:700-773).  `iterate` and `append_autotuner` are executed in the step that leaves lines 713-718. -/
def Session.step (M : Machine A) (lg : Logger) (s : Session A) : SAct → Session A × List Event
  | .worker =>
    if s.gui.w = .running then
      (⟨(workerStep lg (M.found s.tuner) (M.iterate s.tuner).2 s.gui).1, (M.iterate s.tuner).1⟩,
        (workerStep lg (M.found s.tuner) (M.iterate s.tuner).2 s.gui).2)
    else (⟨(workerStep lg (M.found s.tuner) true s.gui).1, s.tuner⟩, (workerStep lg (M.found s.tuner) true s.gui).2)
  | .call op => (⟨(Gui.step lg s.gui (.call op)).1, s.tuner⟩, (Gui.step lg s.gui (.call op)).2)
  | .continue => (⟨(Gui.step lg s.gui .continue).1, s.tuner⟩, (Gui.step lg s.gui .continue).2)

/-- An execution (gui.py:700-773). -/
def Session.run (M : Machine A) (lg : Logger) (s : Session A) : List SAct → Session A × List Event
  | [] => (s, [])
  | a :: as => ((Session.run M lg (s.step M lg a).1 as).1, (s.step M lg a).2 ++ (Session.run M lg (s.step M lg a).1 as).2)

variable {W X V P C γ κ ρ π : Type}

/-- A worker without history: `is_tuning_complete` and `iterate` (gui.py:710, 714; autotuner.py:155-159, 243-291); saving succeeds. -/
def autotunerMachine (H : Autotuner.Hierarchy W X V P C) : Machine (Autotuner.State W X V) where
  complete := Autotuner.isComplete H
  iterate s := ((Autotuner.iterate H (.ok ()) s).1, (Autotuner.iterate H (.ok ()) s).2.2.isOk)

/-- A worker with history (gui.py:710-717): after `iterate` the autotuner is appended to the history, with the file of the call; the number
counts the calls. -/
def historyMachine [DecidableEq γ] (R : History.Reader W γ κ ρ) (known : W → Nat → Bool) (H : Autotuner.Hierarchy W X V P C)
    (path : Nat → π) : Machine (Autotuner.State W X V × History.Hist γ κ ρ π × Nat) where
  complete a := Autotuner.isComplete H a.1
  iterate a :=
    match Autotuner.iterate H (.ok ()) a.1 with
    | (s', _, .error _) => ((s', a.2.1, a.2.2 + 1), false)
    | (s', _, .ok ()) =>
      ((s', (History.appendG a.2.1 (R.gview known H s') (path a.2.2)).1, a.2.2 + 1),
        (History.appendG a.2.1 (R.gview known H s') (path a.2.2)).2.isOk)

end Qtune.Gui
