import Verif.Writer.Props
import Verif.Writer.PropsJoin

/-!
# `AsynchronousHDF5Writer` in process mode (storage.py:297-369, `multiprocess=True`)

The queue is a `multiprocessing.JoinableQueue`: `put` appends to a buffer and counts the task; a feeder thread pickles the elements of the
buffer one after the other and sends them through a pipe to the worker.  An element that cannot be pickled is discarded by the feeder,
which only prints the traceback; it stays counted.  Simplifications: what was pickled can be unpickled by the worker; the pipe is never full.
-/

namespace Qtune.Writer.Process

variable {σ : Type}

/-- As `Writer.State`, with the buffer of the queue and the pipe instead of the queue; `dropped` are the tasks that were discarded since
the last restart.  storage.py:319-339. -/
structure State (σ : Type) where
  obj : σ
  cmds : List (Cmd σ)
  pc : Pc σ
  buffer : List (Option (Task σ))
  pipe : List (Option (Task σ))
  dropped : List (Task σ)
  unfinished : Nat
  worker : Worker σ
  past : List (Event σ)
  log : List (Event σ)

/-- A new writer and the commands of the caller.  storage.py:319-339. -/
def init (obj : σ) (cmds : List (Cmd σ)) : State σ := ⟨obj, cmds, .ready, [], [], [], 0, .idle, [], []⟩

/-- `join` (storage.py:346-355), the first step. -/
def startJoin (restart : Bool) (s : State σ) : State σ :=
  { s with pc := if s.worker.alive then .joinPut restart else .joinThread restart }

/-- One step of the caller; `none` if it has to wait or has nothing more to do.  storage.py:341-369. -/
def callerStep (s : State σ) : Option (State σ) :=
  match s.pc with
  | .ready =>
    match s.cmds with
    | [] => none
    | .mutate v :: cmds => some { s with obj := v, cmds := cmds }
    | .write target :: cmds =>                                                      -- lines 362-370
      if s.worker.alive then
        some { s with
          cmds := cmds
          pc := .put ⟨target, s.obj⟩
          log := s.log ++ [.called ⟨target, s.obj⟩] }
      else some { s with cmds := cmds, log := s.log ++ [.refused] }
    | .join :: cmds => some (startJoin false { s with cmds := cmds })
    | .restart :: cmds => some (startJoin true { s with cmds := cmds })              -- lines 337-340
  | .put t => some { s with pc := .ready, buffer := s.buffer ++ [some t], unfinished := s.unfinished + 1 }
  | .joinPut r => some { s with pc := .joinWait r, buffer := s.buffer ++ [none], unfinished := s.unfinished + 1 }
  | .joinWait r => if s.unfinished = 0 then some { s with pc := .joinThread r } else none
  | .joinThread r =>
    if s.worker.alive then none
    else if r then
      some { s with
        pc := .ready
        buffer := []
        pipe := []
        dropped := []
        unfinished := 0
        worker := .idle
        past := s.past ++ s.log ++ [.joined]
        log := [] }
    else some { s with pc := .ready, log := s.log ++ [.joined] }

/-- One step of the feeder thread of the queue; `pickles t`: the task can be pickled.  `multiprocessing.JoinableQueue`, chosen in
storage.py:325. -/
def feederStep (pickles : Task σ → Bool) (s : State σ) : Option (State σ) :=
  match s.buffer with
  | [] => none
  | none :: buffer => some { s with buffer := buffer, pipe := s.pipe ++ [none] }
  | some t :: buffer =>
    if pickles t then some { s with buffer := buffer, pipe := s.pipe ++ [some t] }
    else some { s with buffer := buffer, dropped := s.dropped ++ [t] }

/-- One step of the worker; `none` if it has to wait or is dead.  `fails t`: the function `to_hdf5` raises for
the task `t`.  storage.py:297-312. -/
def workerStep (fails : Task σ → Bool) (s : State σ) : Option (State σ) :=
  match s.worker with
  | .idle =>                                                                         -- line 298
    match s.pipe with
    | [] => none
    | t :: pipe => some { s with worker := .got t, pipe := pipe }
  | .got none => some { s with worker := .finishing true }                            -- lines 300-301
  | .got (some t) =>                                                                 -- lines 303-309
    if fails t then some { s with worker := .finishing true, log := s.log ++ [.failed t] }
    else some { s with worker := .finishing false, log := s.log ++ [.written t] }
  | .finishing stop =>                                                               -- lines 310-311
    some { s with worker := if stop then .exiting else .idle, unfinished := s.unfinished - 1 }
  | .exiting => some { s with worker := .dead, log := s.log ++ [.died] }
  | .dead => none

/-- The thread that calls the writer, the feeder thread of the queue and the process of storage.py:297-312. -/
inductive Actor
  | caller
  | feeder
  | worker

/-- One step of an actor; an actor that has to wait does nothing.  storage.py:297-369. -/
def step (pickles fails : Task σ → Bool) (a : Actor) (s : State σ) : State σ :=
  match a with
  | .caller => (callerStep s).getD s
  | .feeder => (feederStep pickles s).getD s
  | .worker => (workerStep fails s).getD s

/-- A schedule.  storage.py:297-369. -/
def run (pickles fails : Task σ → Bool) : List Actor → State σ → State σ
  | [], s => s
  | a :: as, s => run pickles fails as (step pickles fails a s)

/-- Everything that happened. -/
def State.events (s : State σ) : List (Event σ) := s.past ++ s.log

/-- The caller has executed all its commands. -/
def State.finished (s : State σ) : Prop := s.cmds = [] ∧ match s.pc with | .ready => True | _ => False

end Qtune.Writer.Process
