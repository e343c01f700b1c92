import Verif.Base

/-!
# Model of `AsynchronousHDF5Writer` (storage.py:297-369)

Two actors, the caller and the worker, make atomic steps in any order.  `σ` is the type of the state of
the object that is written.
-/

namespace Qtune.Writer

/-- An element of the queue other than `None` (storage.py:369): the file and the deep copy of the
object.  Simplification: the name and the reserved objects are part of the target. -/
structure Task (σ : Type) where
  target : String
  value : σ

/-- What the program does with the writer: change the object, `write`, `join`, `restart`.  storage.py:341-369. -/
inductive Cmd (σ : Type)
  | mutate (v : σ)
  | write (target : String)
  | join
  | restart

/-- Where the caller is.  `put t`: in `write`, before `self._queue.put` (storage.py:369).  `joinPut`: in
`join`, before `put(None)` (line 345); `joinWait`: in `self._queue.join()` (line 346); `joinThread`: in
`self._worker.join()` (line 351).  The flag is `True` in `restart`. -/
inductive Pc (σ : Type)
  | ready
  | put (t : Task σ)
  | joinPut (restart : Bool)
  | joinWait (restart : Bool)
  | joinThread (restart : Bool)

/-- Where the worker is in `_writer_target` (storage.py:297-312).  `idle`: before `get`; `got`: after `get`;
`finishing`: before `task_done`, the flag is `True` if the function ends afterwards; `exiting`: after
`task_done`, still alive; `dead`: not alive. -/
inductive Worker (σ : Type)
  | idle
  | got (t : Option (Task σ))
  | finishing (stop : Bool)
  | exiting
  | dead

/-- What happened.  `called`: a call of `write` found the worker alive and copied the object; `refused`: a
call of `write` raised `RuntimeError`; `written`, `failed`: the worker executed a task; `died`: the worker
is not alive any more; `joined`: `join` returned.  storage.py:297-369. -/
inductive Event (σ : Type)
  | called (t : Task σ)
  | refused
  | written (t : Task σ)
  | failed (t : Task σ)
  | died
  | joined

/-- `unfinished` is the counter of the queue that `join` waits for.  `past` are the events before the last
restart, `log` those since then.  storage.py:319-339. -/
structure State (σ : Type) where
  obj : σ
  cmds : List (Cmd σ)
  pc : Pc σ
  queue : List (Option (Task σ))
  unfinished : Nat
  worker : Worker σ
  past : List (Event σ)
  log : List (Event σ)

variable {σ : Type}

/-- A new writer (`__init__` and `_initialize`, storage.py:319-339) and the commands of the caller. -/
def init (obj : σ) (cmds : List (Cmd σ)) : State σ := ⟨obj, cmds, .ready, [], 0, .idle, [], []⟩

/-- `self._worker.is_alive()`.  Used in storage.py:348, 361. -/
def Worker.alive : Worker σ → Bool
  | .dead => false
  | _ => true

/-- `join` (storage.py:346-355), the first step. -/
def startJoin (restart : Bool) (s : State σ) : State σ :=
  { s with pc := if s.worker.alive then .joinPut restart else .joinThread restart }

/-- One step of the caller; `none` if it has to wait or has nothing more to do.  storage.py:341-369. -/
def callerStep (s : State σ) : Option (State σ) :=
  match s.pc with
  | .ready =>
    match s.cmds with
    | [] => none
    | .mutate v :: cmds => some { s with obj := v, cmds := cmds }
    | .write target :: cmds =>                                                      -- lines 362-370
      if s.worker.alive then
        some { s with
          cmds := cmds
          pc := .put ⟨target, s.obj⟩
          log := s.log ++ [.called ⟨target, s.obj⟩] }
      else some { s with cmds := cmds, log := s.log ++ [.refused] }
    | .join :: cmds => some (startJoin false { s with cmds := cmds })
    | .restart :: cmds => some (startJoin true { s with cmds := cmds })              -- lines 337-340
  | .put t => some { s with pc := .ready, queue := s.queue ++ [some t], unfinished := s.unfinished + 1 }
  | .joinPut r => some { s with pc := .joinWait r, queue := s.queue ++ [none], unfinished := s.unfinished + 1 }
  | .joinWait r => if s.unfinished = 0 then some { s with pc := .joinThread r } else none
  | .joinThread r =>
    if s.worker.alive then none
    else if r then
      some { s with
        pc := .ready
        queue := []
        unfinished := 0
        worker := .idle
        past := s.past ++ s.log ++ [.joined]
        log := [] }
    else some { s with pc := .ready, log := s.log ++ [.joined] }

/-- One step of the worker; `none` if it has to wait or is dead.  `fails t`: the function `to_hdf5` raises for
the task `t`.  storage.py:297-312. -/
def workerStep (fails : Task σ → Bool) (s : State σ) : Option (State σ) :=
  match s.worker with
  | .idle =>                                                                         -- line 298
    match s.queue with
    | [] => none
    | t :: queue => some { s with worker := .got t, queue := queue }
  | .got none => some { s with worker := .finishing true }                            -- lines 300-301
  | .got (some t) =>                                                                 -- lines 303-309
    if fails t then some { s with worker := .finishing true, log := s.log ++ [.failed t] }
    else some { s with worker := .finishing false, log := s.log ++ [.written t] }
  | .finishing stop =>                                                               -- lines 310-311
    some { s with worker := if stop then .exiting else .idle, unfinished := s.unfinished - 1 }
  | .exiting => some { s with worker := .dead, log := s.log ++ [.died] }
  | .dead => none

/-- The thread that calls the writer and the thread of storage.py:297-312. -/
inductive Actor
  | caller
  | worker

/-- One step of an actor; an actor that has to wait does nothing.  storage.py:297-369. -/
def step (fails : Task σ → Bool) (a : Actor) (s : State σ) : State σ :=
  match a with
  | .caller => (callerStep s).getD s
  | .worker => (workerStep fails s).getD s

/-- A schedule.  storage.py:297-369. -/
def run (fails : Task σ → Bool) : List Actor → State σ → State σ
  | [], s => s
  | a :: as, s => run fails as (step fails a s)

end Qtune.Writer
