import Verif.Base

/-!
# Model of the windows that show the history (gui.py:38-50, 75-83, 314-356, 477, 577-671, 713-717)

The worker thread changes the history and emits the signal `_update_plots`, which is connected with the method `refresh` of the windows.  The
windows belong to the main thread, so Qt puts a call of `refresh` for each connected window into the queue of events of this thread.
`σ` are the contents of the history and `π` the pictures.  What a window draws is a parameter of the model, see `Gui/Plot*`,
`History/TuningPlot*` and `Gui/Raw*`; `none` is an exception, which `log_exceptions` writes to the log (gui.py:38-50).  `τ` are the selections of curves in a window "Real Time Plot", and `none`
is selected at the beginning.  Simplification: after an exception the old picture is left as it is.  The windows "Load" show nothing of the
history (gui.py:417-418) and are not modelled here.
-/

namespace Qtune.Gui.Follow

/-- The windows that the buttons open: "Real Time Plot", "Parameter Plot", "Gradient Plot" and "Raw Data Plot".  gui.py:513-527. -/
inductive Kind
  | plot
  | parameter
  | gradient
  | rawData
deriving DecidableEq

/-- The windows that are connected with the signal (gui.py:599, 635, 650); the line for raw data is commented out (gui.py:665). -/
def Kind.connected : Kind → Bool
  | .rawData => false
  | _ => true

/-- An open window, identified by a number, with its selection and what it shows.  gui.py:591-671. -/
structure Win (τ π : Type) where
  id : Nat
  kind : Kind
  chosen : Option τ
  shown : Option π

/-- The history, the open windows, the number of the next window, and the calls of `refresh` that wait in the queue of the main thread.
gui.py:477, 556-575. -/
structure State (σ τ π : Type) where
  hist : σ
  wins : List (Win τ π)
  next : Nat
  queue : List Nat

variable {σ τ π : Type}

/-- `refresh` of a window: it draws the history as it is now, or nothing if an exception occurs.  gui.py:38-50, 81-83, 324-356. -/
def Win.refresh (draw : Kind → Option τ → σ → Option π) (hist : σ) (w : Win τ π) : Win τ π :=
  { w with shown := (draw w.kind w.chosen hist).or w.shown }

/-- What can happen, in any order: -/
inductive Act (σ τ : Type)
  | append (h : σ)     -- the worker changes the history (gui.py:713-716)
  | emit               -- the worker emits the signal (gui.py:718)
  | event              -- the main thread processes the first event of its queue
  | spawn (k : Kind)   -- a button opens a window
  | choose (id : Nat) (c : Option τ)   -- another selection in a window
  | close (id : Nat)   -- a window is closed

/-- One of these steps.  A window draws the history when it is created (gui.py:81, 294, or it is empty, gui.py:236-280) and is then connected
(gui.py:591-671); a closed window is deleted, and with it its connection (gui.py:577-589).  A new selection calls `refresh`
(gui.py:223-227); so does the button "Refresh" (gui.py:262), which selects what is selected. -/
def step (draw : Kind → Option τ → σ → Option π) (s : State σ τ π) : Act σ τ → State σ τ π
  | .append h => { s with hist := h }
  | .emit => { s with queue := s.queue ++ (s.wins.filter fun w => w.kind.connected).map Win.id }
  | .event =>
    match s.queue with
    | [] => s
    | i :: q => { s with queue := q, wins := s.wins.map fun w => if w.id = i then w.refresh draw s.hist else w }
  | .spawn k => { s with wins := s.wins ++ [⟨s.next, k, none, draw k none s.hist⟩], next := s.next + 1 }
  | .choose i c =>
    { s with wins := s.wins.map fun w => if w.id = i ∧ w.kind = .plot then Win.refresh draw s.hist { w with chosen := c } else w }
  | .close i => { s with wins := s.wins.filter fun w => w.id ≠ i }

/-- All steps.  gui.py:577-671, 700-727. -/
def run (draw : Kind → Option τ → σ → Option π) (s : State σ τ π) (as : List (Act σ τ)) : State σ τ π := as.foldl (step draw) s

/-- The gui after its creation.  gui.py:475-575. -/
def init (h : σ) : State σ τ π := ⟨h, [], 0, []⟩

end Qtune.Gui.Follow
