import Verif.Gui.Model

/-!
# Model of the buttons Start, Step and Pause (gui.py:483-494, 700-768)

`pause()` is called by the thread of the user interface and by the worker, and every assignment and every `setEnabled` is a separate step.
Simplifications: the worker lives; between its orders and `pause()` it is only known whether it is in lines 706-727.
-/

namespace Qtune.Gui.Buttons

/-- An assignment to a flag, or `setEnabled` of a button (gui.py:727, 743-746, 755, 764-768); `idle` is the end of lines 706-727. -/
inductive Write
  | continuous (b : Bool)
  | stepped (b : Bool)
  | startButton (b : Bool)
  | stepButton (b : Bool)
  | pauseButton (b : Bool)
  | idle
  deriving DecidableEq

/-- The flags, which buttons can be clicked, whether the worker is in lines 706-727, and what is left of the method that each of the threads executes
(gui.py:483-566). -/
structure State where
  continuous : Bool
  stepped : Bool
  startButton : Bool
  stepButton : Bool
  pauseButton : Bool
  busy : Bool
  gui : List Write
  worker : List Write

/-- After `__init__` (gui.py:483-494, 562-566). -/
def init : State := ⟨false, false, true, true, false, false, [], []⟩

/-- One assignment (gui.py:727, 743-746, 755, 764-768). -/
def Write.apply (s : State) : Write → State
  | .continuous b => { s with continuous := b }
  | .stepped b => { s with stepped := b }
  | .startButton b => { s with startButton := b }
  | .stepButton b => { s with stepButton := b }
  | .pauseButton b => { s with pauseButton := b }
  | .idle => { s with busy := false }

/-- `start` (gui.py:743-746). -/
def startWrites : List Write := [.continuous true, .startButton false, .stepButton false, .pauseButton true]
/-- `step` (gui.py:755). -/
def stepWrites : List Write := [.stepped true]
/-- `pause` (gui.py:764-768). -/
def pauseWrites : List Write := [.continuous false, .stepped false, .startButton true, .stepButton true, .pauseButton false]

/-- What can happen (gui.py:700-768). -/
inductive Act
  /-- the user clicks -/
  | clickStart
  | clickStep
  | clickPause
  /-- the thread of the user interface executes one assignment -/
  | guiWrite
  /-- the worker sees an order, lines 702-705 -/
  | workerBegin
  /-- the worker reaches line 727, without or after an exception or completion (lines 711, 722, 725) -/
  | workerEnd (pauses : Bool)
  /-- the worker executes one assignment -/
  | workerWrite

/-- A click on a button that is enabled, while no method is executed, calls its method (gui.py:485-494). -/
def click (s : State) (enabled : Bool) (ws : List Write) : State :=
  if enabled && s.gui.isEmpty then { s with gui := ws } else s

/-- One step (gui.py:700-768). -/
def step (s : State) : Act → State
  | .clickStart => click s s.startButton startWrites
  | .clickStep => click s s.stepButton stepWrites
  | .clickPause => click s s.pauseButton pauseWrites
  | .guiWrite =>
    match s.gui with
    | [] => s
    | w :: ws => { w.apply s with gui := ws }
  | .workerBegin => if !s.busy && (s.continuous || s.stepped) then { s with busy := true } else s
  | .workerEnd pauses =>
    if s.busy && s.worker.isEmpty then
      { s with worker := (if pauses then pauseWrites else []) ++ [.stepped false, .idle] }
    else s
  | .workerWrite =>
    match s.worker with
    | [] => s
    | w :: ws => { w.apply s with worker := ws }

/-- An execution (gui.py:700-768). -/
def run (s : State) (as : List Act) : State := as.foldl step s

end Qtune.Gui.Buttons
