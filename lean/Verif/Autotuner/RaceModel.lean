import Verif.Autotuner.Spec

/-!
# A call of `iterate` that another thread interrupts

The GUI runs `Autotuner.iterate` in a worker thread (gui.py:700-729) while the user calls `restart`
or `change_targets` of the same object, from the console or from a reload window
(gui.py:448-456).  There is no lock.  In this model the call of `iterate` is cut into two parts:
first everything up to the return of the method of the tuner resp. of the experiment
(autotuner.py:250-268, 274, 287), then the assignments to the attributes of the
autotuner (autotuner.py:269-270, 275-276, 280, 287-288) and the saving (autotuner.py:291).
The calls of other threads fall before the first, between the two, or after the second part.

Simplification: each part, and each call of another thread, is not interrupted.  The
theorem about all schedules is therefore restricted to those in which the other thread waits; the refutations
need no more than the interruptions that are present here.
-/

namespace Qtune.Autotuner

variable {W X V P C : Type}

/-- Where the call of `iterate` is: not running, or in front of the assignments that follow the
call of a method, with what this method returned.  Lines of autotuner.py. -/
inductive Called (V P : Type)
  /-- no call of `iterate` is running -/
  | idle
  /-- behind line 268: `set_gate_voltages(v)` has returned -/
  | written (v : V)
  /-- in line 275: `is_tuned` of tuner `i`, called with `v`, has returned `b` -/
  | evaluated (i : Nat) (v : V) (b : Bool)
  /-- in line 287: `get_next_voltages` of tuner `i` has returned `v` -/
  | suggested (i : Nat) (p : P) (v : V)

/-- The first part of `iterate` (autotuner.py:250-268, 274, 287): the checks and the call of the method.  If it raises,
`iterate` is left and nothing is assigned. -/
def begin_ (H : Hierarchy W X V P C) (s : State W X V) :
    State W X V × List (Event W V P) × Except PyErr (Called V P) :=
  match H.ready s.tuners s.expt s.pending with                       -- line 250
  | .error e => (s, [], .error e)
  | .ok false => (s, [], .error errIncomplete)                       -- line 251
  | .ok true =>
    if isComplete H s then (s, [], .error errComplete)               -- lines 253-254
    else match s.pending with
    | some v =>                                                      -- line 256
      if H.hasNaN v then (s, [], .error errNaN)                      -- lines 257-258
      else match H.setVolt v s.expt with                             -- line 268
        | (x, .error e) => ({ s with expt := x }, [.wrote v (.error e)], .error e)
        | (x, .ok ()) => ({ s with expt := x }, [.wrote v (.ok ())], .ok (.written v))
    | none =>
      if H.len ≤ s.index then (s, [], .error .indexError)            -- line 241
      else if s.status = false then                                  -- lines 271, 274
        match H.isTuned s.index (H.read s.expt) s.tuners s.expt with
        | ((w, x), .error e) =>
          ({ s with tuners := w, expt := x },
            [.evaluated s.index (H.read s.expt) (.error e)], .error e)
        | ((w, x), .ok b) =>
          ({ s with tuners := w, expt := x }, [.evaluated s.index (H.read s.expt) (.ok b)],
            .ok (.evaluated s.index (H.read s.expt) b))
      else                                                           -- line 287
        match H.nextVolt s.index (H.tunedParams s.tuners s.index) s.tuners with
        | (w, .error e) =>
          ({ s with tuners := w },
            [.suggested s.index (H.tunedParams s.tuners s.index) (.error e)], .error e)
        | (w, .ok v) =>
          ({ s with tuners := w },
            [.suggested s.index (H.tunedParams s.tuners s.index) (.ok v)],
            .ok (.suggested s.index (H.tunedParams s.tuners s.index) v))

/-- The assignments of the second part, to the attributes as they are *then*: autotuner.py:269-270, 275 (the index is
read again), 280, 287-288. -/
def assign (s : State W X V) : Called V P → State W X V
  | .idle => s
  | .written _ => { s with index := 0, pending := none }
  | .evaluated _ _ true => { s with index := s.index + 1 }
  | .evaluated _ _ false => { s with status := true }
  | .suggested _ _ v => { s with pending := some v, status := false }

/-- The second part: the assignments and `save_current_status` (autotuner.py:291). -/
def end_ (save : Except PyErr Unit) (s : State W X V) (c : Called V P) :
    State W X V × List (Event W V P) :=
  match save with
  | .ok () => (assign s c, [.saved (assign s c).snapshot])
  | .error _ => (assign s c, [])

/-- What happens next: the worker enters `iterate` (gui.py:713), the worker goes on after the call of the method, or another
thread does something. -/
inductive Turn (X C : Type)
  | enter
  | leave (save : Except PyErr Unit)
  | other (op : Op X C)

/-- One turn.  Entering while a call is running and leaving while none is running cannot
happen (there is one worker, gui.py:562): nothing changes.  The other thread does not call
`iterate` itself (`GUI` is the only caller, gui.py:713): nothing changes either. -/
def turn (H : Hierarchy W X V P C) (s : State W X V) (c : Called V P) :
    Turn X C → State W X V × Called V P × List (Event W V P)
  | .enter =>
    match c with
    | .idle =>
      match begin_ H s with
      | (s', log, .ok c') => (s', c', log)
      | (s', log, .error _) => (s', .idle, log)
    | c => (s, c, [])
  | .leave save =>
    match c with
    | .idle => (s, .idle, [])
    | c => ((end_ save s c).1, .idle, (end_ save s c).2)
  | .other (.iterate _) => (s, c, [])
  | .other op => ((step H s op).1, c, (step H s op).2.1)

/-- A schedule of turns (gui.py:700-729 and the calls of other threads). -/
def turns (H : Hierarchy W X V P C) : State W X V → Called V P → List (Turn X C) →
    State W X V × Called V P × List (Event W V P)
  | s, c, [] => (s, c, [])
  | s, c, t :: ts =>
    let r := turn H s c t
    let q := turns H r.1 r.2.1 ts
    (q.1, q.2.1, r.2.2 ++ q.2.2)

end Qtune.Autotuner
