import Verif.EndToEnd.CrashModel
import Verif.EndToEnd.Cycles

/-!
# What it means that a tuning is completed although the process dies again and again
-/

namespace Qtune.EndToEnd

open Qtune.Tuner Qtune.Gradient Qtune.Autotuner

/-- Executions with crashes: `iterate` is called and returns normally, or the process dies somewhere during a call
of `iterate`, leaves the experiment in a state `x'` (`CrashLeaves`), and the tuning is continued with the autotuner
that is loaded from the newest file.  The log has the events of the calls that returned. -/
inductive Interrupted {W X V P C : Type} (H : Hierarchy W X V P C) (load : W → Except PyErr W)
    (s₀ : Autotuner.State W X V) : Autotuner.State W X V → List (Event W V P) → Prop
  | start : Interrupted H load s₀ s₀ []
  | iter {s s' : Autotuner.State W X V} {log ev : List (Event W V P)} :
      Interrupted H load s₀ s log → iterate H (.ok ()) s = (s', ev, .ok ()) → Interrupted H load s₀ s' (log ++ ev)
  | crash {s : Autotuner.State W X V} {log : List (Event W V P)} {x' : X} {p : Snapshot W V} :
      Interrupted H load s₀ s log → CrashLeaves H s x' → recovered load s₀.snapshot log = .ok p →
      Interrupted H load s₀ (p.load x') log

/-- Number of calls of `iterate` that returned: each of them saves once. -/
def calls {W V P : Type} (log : List (Event W V P)) : Nat :=
  (log.filter fun e => match e with | .saved _ => true | _ => false).length

/-- Whenever and as often as the process dies: the newest file can be loaded; `iterate` does not raise before the
tuning is complete; the tuning is complete at the latest when `N` calls of `iterate` have returned, and then the
voltages meet the set points. -/
def CompletesDespiteCrashes {n m : Nat} {X : Type} (S : Setup n m) (I : Newton.EstI X (Fin n))
    (lstsq : Newton.Lstsq (Fin n)) (load : OneTuner X n → Except PyErr (OneTuner X n)) (N : Nat)
    (s₀ : Autotuner.State (OneTuner X n) (Volt (Fin n)) (Volt (Fin n))) : Prop :=
  ∀ s log, Interrupted (hierarchy I lstsq S.outs) load s₀ s log →
    (∃ p, recovered load s₀.snapshot log = .ok p) ∧
    (isComplete (hierarchy I lstsq S.outs) s = true ∨
      ∃ s' ev, iterate (hierarchy I lstsq S.outs) (.ok ()) s = (s', ev, .ok ())) ∧
    calls log ≤ N ∧ (calls log = N → isComplete (hierarchy I lstsq S.outs) s = true) ∧
    (isComplete (hierarchy I lstsq S.outs) s = true → ∃ q : Vec n, s.expt = volts q ∧ SetPointsMet S q)

end Qtune.EndToEnd
