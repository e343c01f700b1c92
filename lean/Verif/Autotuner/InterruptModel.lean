import Verif.Autotuner.Model

/-!
# Model of calls that are interrupted between two statements

The user may press Ctrl-C while a method of the autotuner runs: Python then raises
`KeyboardInterrupt` between two statements, the rest of the method is not executed, and the object
stays as it is, ready for the next call.  For each method this file lists the states between its
statements.

Simplification: an interruption *inside* a method of a tuner or of the experiment is an exception
raised by that method; exceptions with arbitrary partial effects are part of `Hierarchy` already.
Lines that only write to the log file are not modelled.
-/

namespace Qtune.Autotuner

variable {W X V P C : Type}

/-- The states between the statements of `Autotuner.iterate` (autotuner.py:250-291), with what has
happened up to there; the first is the state before the call, the last the state in which
`save_current_status` is called or, if something raises, the state in which the exception leaves
the method. -/
def iterateTrace (H : Hierarchy W X V P C) (s : State W X V) :
    List (State W X V × List (Event W V P)) :=
  match H.ready s.tuners s.expt s.pending with                       -- line 250
  | .error _ => [(s, [])]
  | .ok false => [(s, [])]
  | .ok true =>
    if isComplete H s then [(s, [])]                                 -- lines 253-254
    else match s.pending with
    | some v =>                                                      -- line 256
      if H.hasNaN v then [(s, [])]                                   -- lines 257-258
      else match H.setVolt v s.expt with                             -- line 268
        | (x, .error e) => [(s, []), ({ s with expt := x }, [.wrote v (.error e)])]
        | (x, .ok ()) =>
          [(s, []),
           ({ s with expt := x }, [.wrote v (.ok ())]),
           ({ s with expt := x, index := 0 }, [.wrote v (.ok ())]),  -- line 269
           ({ s with expt := x, index := 0, pending := none }, [.wrote v (.ok ())])] -- line 270
    | none =>
      if H.len ≤ s.index then [(s, [])]                              -- line 241
      else if s.status = false then                                  -- line 271
        match H.isTuned s.index (H.read s.expt) s.tuners s.expt with -- line 274
        | ((w, x), .error e) =>
          [(s, []),
           ({ s with tuners := w, expt := x }, [.evaluated s.index (H.read s.expt) (.error e)])]
        | ((w, x), .ok true) =>
          [(s, []),
           ({ s with tuners := w, expt := x }, [.evaluated s.index (H.read s.expt) (.ok true)]),
           ({ s with tuners := w, expt := x, index := s.index + 1 },  -- line 275
             [.evaluated s.index (H.read s.expt) (.ok true)])]
        | ((w, x), .ok false) =>
          [(s, []),
           ({ s with tuners := w, expt := x }, [.evaluated s.index (H.read s.expt) (.ok false)]),
           ({ s with tuners := w, expt := x, status := true },       -- line 279
             [.evaluated s.index (H.read s.expt) (.ok false)])]
      else                                                           -- line 287
        match H.nextVolt s.index (H.tunedParams s.tuners s.index) s.tuners with
        | (w, .error e) =>
          [(s, []),
           ({ s with tuners := w },
             [.suggested s.index (H.tunedParams s.tuners s.index) (.error e)])]
        | (w, .ok v) =>
          [(s, []),
           ({ s with tuners := w },
             [.suggested s.index (H.tunedParams s.tuners s.index) (.ok v)]),
           ({ s with tuners := w, pending := some v },
             [.suggested s.index (H.tunedParams s.tuners s.index) (.ok v)]),
           ({ s with tuners := w, pending := some v, status := false }, -- line 288
             [.suggested s.index (H.tunedParams s.tuners s.index) (.ok v)])]

/-- The states between the statements of `Autotuner.restart` (autotuner.py:296-300).  Once the
pending voltages are dropped, the call counts as a restart. -/
def restartTrace (H : Hierarchy W X V P C) (s : State W X V) :
    List (State W X V × List (Event W V P)) :=
  [(s, []),
   ({ s with index := 0 }, []),                                      -- line 296
   ({ s with index := 0, pending := none }, [.restarted]),           -- line 297
   ({ s with tuners := (H.restartTuners (H.read s.expt) s.tuners).1, index := 0, pending := none },
     [.restarted])]                                                  -- lines 298-300

/-- The states between the statements of `Autotuner.change_targets` (autotuner.py:215-219). -/
def targetsTrace (H : Hierarchy W X V P C) (c : C) (s : State W X V) :
    List (State W X V × List (Event W V P)) :=
  if H.len < H.nChanges c then [(s, []), (s, [.targetsChanged false])] -- line 215
  else match H.applyTargets c s.tuners with                          -- lines 216-217
    | (w, .error _) => [(s, []), ({ s with tuners := w }, [.targetsChanged false])]
    | (w, .ok ()) =>
      [(s, []),
       ({ s with tuners := w }, [.targetsChanged true]),
       ({ s with tuners := w, index := 0 }, [.targetsChanged true]), -- line 218
       ({ s with tuners := w, index := 0, pending := none }, [.targetsChanged true])] -- line 219

/-- Where a method whose states are `tr` is left if it is interrupted before its `n`-th statement
(counted from 0); a method that has fewer statements is through.
Methods of autotuner.py:208-219, 243-300. -/
def stopAt (tr : List (State W X V × List (Event W V P))) (n : Nat) (s : State W X V) :
    State W X V × List (Event W V P) :=
  match tr[n]? with
  | some r => r
  | none => tr.getLast?.getD (s, [])

/-- Calls that run to their end, and calls that are interrupted before their `n`-th statement.
Methods of autotuner.py:208-219, 243-300. -/
inductive Act (X C : Type)
  | call (op : Op X C)
  | iterateStopped (n : Nat)
  | restartStopped (n : Nat)
  | targetsStopped (c : C) (n : Nat)

/-- One call, interrupted or not.  Methods of autotuner.py:208-219, 243-300. -/
def act (H : Hierarchy W X V P C) (s : State W X V) : Act X C → State W X V × List (Event W V P)
  | .call op => ((step H s op).1, (step H s op).2.1)
  | .iterateStopped n => stopAt (iterateTrace H s) n s
  | .restartStopped n => stopAt (restartTrace H s) n s
  | .targetsStopped c n => stopAt (targetsTrace H c s) n s

/-- A sequence of calls, each interrupted or not; the final state and everything that happened.
Methods of autotuner.py:208-219, 243-300. -/
def acts (H : Hierarchy W X V P C) : State W X V → List (Act X C) →
    State W X V × List (Event W V P)
  | s, [] => (s, [])
  | s, a :: l =>
    let r := act H s a
    let q := acts H r.1 l
    (q.1, r.2 ++ q.2)

end Qtune.Autotuner
