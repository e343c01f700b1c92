import Verif.Base

/-!
# Model of the worker thread of `qtune.gui.GUI` (gui.py:475-575, 681-776)

The worker thread and the thread of the user interface share three flags.  Every read and every write of a flag is
a separate step, so that all interleavings are covered.

Simplification: the buttons, plots and the log window are not modelled; `join` waits for the worker.
-/

namespace Qtune.Gui

/-- The argument `logger` (gui.py:475, 568): the name of a logger (the default is the name `qtune`), or a logger. -/
inductive Logger | name | logger
  deriving DecidableEq

/-- Position of the worker in `_work` (gui.py:700-727). -/
inductive WPC
  /-- line 701, `while not self._stop` -/
  | outer
  /-- line 702, reading `_stop` -/
  | wait1
  /-- line 702, reading `_continuous` -/
  | wait2
  /-- line 702, reading `_stepped` -/
  | wait3
  /-- line 705, reading `_continuous`; `a or b and c` is `a or (b and c)` -/
  | loop1
  /-- line 705, reading `_stepped` -/
  | loop2
  /-- line 705, reading `_stop` -/
  | loop3
  /-- lines 706-711 -/
  | body
  /-- in `iterate` and `append_autotuner`, lines 713-718 -/
  | running
  /-- in `pause` called by the worker, before line 764 -/
  | pause1
  /-- in `pause` called by the worker, before line 765 -/
  | pause2
  /-- line 727 -/
  | bodyEnd
  /-- the thread has ended -/
  | dead
  deriving DecidableEq

/-- Position of the thread of the user interface.  Methods of gui.py:732-773. -/
inductive GPC
  /-- no method is being executed -/
  | ready
  /-- in `pause`, between lines 764 and 765 -/
  | pausing
  /-- in `close`, at line 772 (`join`) -/
  | joining
  /-- `close` returned -/
  | closed
  deriving DecidableEq

/-- The flags and the thread (gui.py:556-566). -/
structure State where
  stop : Bool
  continuous : Bool
  stepped : Bool
  w : WPC
  g : GPC

/-- After `__init__` (gui.py:562-566). -/
def init : State := ⟨false, false, false, .outer, .ready⟩

/-- What the worker finds: no autotuner, a complete tuning, or an autotuner that can iterate.
Read in gui.py:700-727. -/
inductive Tuner | missing | complete | iterate
  deriving DecidableEq

/-- Calls of the worker and of the user interface (gui.py:700-773). -/
inductive Event
  /-- the worker starts `iterate()` -/
  | started
  /-- the method of the user interface raised -/
  | raised (e : PyErr)
  deriving DecidableEq

/-- One step of the worker (gui.py:700-727).  `ok` tells whether `iterate` and `append_autotuner` return
normally.  If the logger is a name, each logging call raises `AttributeError`, which ends the thread. -/
def workerStep (lg : Logger) (t : Tuner) (ok : Bool) (s : State) : State × List Event :=
  match s.w with
  | .outer => ({ s with w := if s.stop then .dead else .wait1 }, [])
  | .wait1 => ({ s with w := if s.stop then .loop1 else .wait2 }, [])
  | .wait2 => ({ s with w := if s.continuous then .loop1 else .wait3 }, [])
  | .wait3 => ({ s with w := if s.stepped then .loop1 else .wait1 }, [])
  | .loop1 => ({ s with w := if s.continuous then .body else .loop2 }, [])
  | .loop2 => ({ s with w := if s.stepped then .loop3 else .outer }, [])
  | .loop3 => ({ s with w := if s.stop then .outer else .body }, [])
  | .body =>
    match t with
    | .iterate => ({ s with w := .running }, [.started])
    | _ => ({ s with w := if lg = .logger then .pause1 else .dead }, [])
  | .running => ({ s with w := if ok then .bodyEnd else if lg = .logger then .pause1 else .dead }, [])
  | .pause1 => ({ s with continuous := false, w := .pause2 }, [])
  | .pause2 => ({ s with stepped := false, w := .bodyEnd }, [])
  | .bodyEnd => ({ s with stepped := false, w := .loop1 }, [])
  | .dead => (s, [])

/-- The methods the user calls.  gui.py:691-773. -/
inductive Op | start | step | pause | close
  deriving DecidableEq

/-- `restart_thread` (gui.py:691-698) for a worker that has ended. -/
def restartThread (s : State) : State :=
  { s with stop := false, continuous := false, stepped := false, w := .outer }

/-- The beginning of a method, up to its first write of a flag (gui.py:732-773).  If the logger is a name,
`self._logger.info` raises `AttributeError`. -/
def call (lg : Logger) (op : Op) (s : State) : State × List Event :=
  match op with
  | .start =>
    if lg = .name then (s, [.raised .attributeError])
    else ({ (if s.w = .dead then restartThread s else s) with continuous := true }, [])
  | .step =>
    if lg = .name then (s, [.raised .attributeError])
    else ({ (if s.w = .dead then restartThread s else s) with stepped := true }, [])
  | .pause =>
    if lg = .name ∧ (s.w = .dead ∨ s.continuous ∨ ¬ s.stepped) then (s, [.raised .attributeError])
    else ({ s with continuous := false, g := .pausing }, [])
  | .close => ({ s with stop := true, g := .joining }, [])

/-- A step of the worker, a call of a method, or a further step of the method that is being executed.
gui.py:700-773. -/
inductive Act
  | worker (t : Tuner) (ok : Bool)
  | call (op : Op)
  | continue

/-- One step.  Calls while a method is being executed, and `join` while the worker lives, do nothing.
gui.py:700-773. -/
def step (lg : Logger) (s : State) : Act → State × List Event
  | .worker t ok => workerStep lg t ok s
  | .call op => if s.g = .ready then call lg op s else (s, [])
  | .continue =>
    match s.g with
    | .pausing => ({ s with stepped := false, g := .ready }, [])
    | .joining => if s.w = .dead then ({ s with g := .closed }, []) else (s, [])
    | _ => (s, [])

/-- An execution.  gui.py:700-773. -/
def run (lg : Logger) (s : State) : List Act → State × List Event
  | [] => (s, [])
  | a :: as =>
    let r := step lg s a
    let q := run lg r.1 as
    (q.1, r.2 ++ q.2)

end Qtune.Gui
