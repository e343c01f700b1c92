import Verif.Autotuner.Model

/-!
# Specification vocabulary for the autotuner

These definitions talk about logs of observable events only; they do not use the
transition function of the model.
-/

namespace Qtune.Autotuner

variable {W X V P C : Type}

/-- The report "tuner `i` is tuned", if the event is one. -/
def Event.tunedReport : Event W V P → Option Nat
  | .evaluated i _ (.ok true) => some i
  | _ => none

/-- The event is a report "not tuned". -/
def Event.IsUntunedReport : Event W V P → Prop
  | .evaluated _ _ (.ok false) => True
  | _ => False

/-- The event puts an end to everything known about the tuners: voltages were written
(or a write was attempted), the tuning was restarted, or the targets were changed. -/
def Event.IsReset : Event W V P → Prop
  | .wrote _ _ => True
  | .restarted => True
  | .targetsChanged true => True
  | _ => False

/-- The user changed the experiment by hand. -/
def Event.IsManual : Event W V P → Prop
  | .manual => True
  | _ => False

/-- The event is one of the three actions of an iteration. -/
def Event.IsAction : Event W V P → Prop
  | .evaluated _ _ _ => True
  | .suggested _ _ _ => True
  | .wrote _ _ => True
  | _ => False

/-- The action raised an exception. -/
def Event.Raised : Event W V P → Prop
  | .evaluated _ _ (.error _) => True
  | .suggested _ _ (.error _) => True
  | .wrote _ (.error _) => True
  | _ => False

/-- `post` is a stretch of the log during which tuners `0, …, n-1` reported "tuned", each
exactly once and in this order, no tuner reported "not tuned", and no reset took place. -/
structure TunedStretch (n : Nat) (post : List (Event W V P)) : Prop where
  reports : post.filterMap Event.tunedReport = List.range n
  noUntuned : ∀ e ∈ post, ¬ e.IsUntunedReport
  noReset : ∀ e ∈ post, ¬ e.IsReset

/-- Between a suggestion and the write of the suggested voltages only these things may
happen: saving, failed attempts to write the very same voltages, failed target changes and
manual changes. -/
def QuietBeforeWrite (v : V) : Event W V P → Prop
  | .saved _ => True
  | .wrote v' (.error _) => v' = v
  | .targetsChanged false => True
  | .manual => True
  | _ => False

end Qtune.Autotuner

namespace Qtune.Autotuner

variable {W X V P C : Type}

/-- A successful action: evaluation, suggestion or write that did not raise. -/
def Event.isSuccess : Event W V P → Bool
  | .evaluated _ _ (.ok _) => true
  | .suggested _ _ (.ok _) => true
  | .wrote _ (.ok _) => true
  | _ => false

/-- The last successful action of a log. -/
def lastAction (log : List (Event W V P)) : Option (Event W V P) :=
  (log.filter Event.isSuccess).getLast?

/-- The user's process dies during a call of `iterate` in state `s` (before the state is
handed to the writer) and leaves the experiment in state `x'`: untouched, as it is after
the whole call, or – if voltages were being written – in any state in which writing the
same voltages again has the same effect as writing them once (for example when only some
of the gates have been set). -/
def CrashLeaves (H : Hierarchy W X V P C) (s : State W X V) (x' : X) : Prop :=
  x' = s.expt ∨ x' = (iterate H (.ok ()) s).1.expt ∨
    ∃ v, s.pending = some v ∧ H.setVolt v x' = H.setVolt v s.expt ∧
      H.ready s.tuners x' s.pending = H.ready s.tuners s.expt s.pending

/-- The description of the autotuner in the newest file; if nothing has been saved yet, the setup `first`
with which the program started. -/
def newestFile (first : Snapshot W V) : List (Event W V P) → Snapshot W V
  | [] => first
  | .saved p :: log => newestFile p log
  | _ :: log => newestFile first log

/-- Executions made of iterations that return normally, interrupted by crashes.  A crash
loses the state of the process; the autotuner is loaded again from the newest file
and the hardware keeps what the crash left.  The log contains
the events of the completed iterations only. -/
inductive CrashRun (H : Hierarchy W X V P C) (s₀ : State W X V) :
    State W X V → List (Event W V P) → Prop
  | start : CrashRun H s₀ s₀ []
  | iter {s s' : State W X V} {log ev : List (Event W V P)} :
      CrashRun H s₀ s log → iterate H (.ok ()) s = (s', ev, .ok ()) →
      CrashRun H s₀ s' (log ++ ev)
  | crash {s : State W X V} {log : List (Event W V P)} {x' : X} :
      CrashRun H s₀ s log → CrashLeaves H s x' →
      CrashRun H s₀ ((newestFile s₀.snapshot log).load x') log

end Qtune.Autotuner

namespace Qtune.Autotuner

variable {W X V P C : Type}

/-- What an event of the log says about the tuners and the experiment: `(w, x)` before and
`(w', x')` after it.  An evaluation of tuner `i` at `v`: the experiment showed the voltages `v`, and
calling `is_tuned` of tuner `i` with them gave the result of the event; and so on. -/
def Event.Happened (H : Hierarchy W X V P C) (w : W) (x : X) (w' : W) (x' : X) :
    Event W V P → Prop
  | .evaluated i v r => v = H.read x ∧ H.isTuned i v w x = ((w', x'), r)
  | .suggested i p r => p = H.tunedParams w i ∧ H.nextVolt i p w = (w', r) ∧ x' = x
  | .wrote v r => H.hasNaN v = false ∧ H.setVolt v x = (x', r) ∧ w' = w
  | .saved p => p.tuners = w ∧ w' = w ∧ x' = x
  | .restarted => (∃ r, H.restartTuners (H.read x) w = (w', r)) ∧ x' = x
  | .targetsChanged ok => x' = x ∧ ∃ c,
      (H.len < H.nChanges c ∧ ok = false ∧ w' = w) ∨
      (H.nChanges c ≤ H.len ∧ ∃ r, H.applyTargets c w = (w', r) ∧ (ok = true ↔ r = .ok ()))
  | .manual => w' = w

/-- The log tells everything that was done to the tuners and to the experiment, in this order. -/
inductive Replays (H : Hierarchy W X V P C) : W → X → List (Event W V P) → W → X → Prop
  | nil {w x} : Replays H w x [] w x
  | cons {w x w₁ x₁ w₂ x₂ e log} : e.Happened H w x w₁ x₁ → Replays H w₁ x₁ log w₂ x₂ →
      Replays H w x (e :: log) w₂ x₂

end Qtune.Autotuner
