import Verif.Autotuner.InterruptModel
import Verif.EndToEnd.Model

/-! # C212: interrupted calls of `iterate` -/

namespace Qtune.EndToEnd

open Qtune.Tuner Qtune.Autotuner

variable {n : Nat}

/-- Only calls of `iterate`, some of them interrupted (by Ctrl-C, somewhere between two statements). -/
def OnlyIterates (l : List (Act (Volt (Fin n)) Unit)) : Prop :=
  ∀ a ∈ l, (∃ save, a = .call (.iterate save)) ∨ ∃ k, a = .iterateStopped k

/-- No call is interrupted between an evaluation and its note: a call that evaluates is not interrupted before its second statement. -/
def Noted {W V P C : Type} (H : Autotuner.Hierarchy W V V P C) : Autotuner.State W V V → List (Act V C) → Prop
  | _, [] => True
  | s, a :: l => (s.pending = none → s.status = false → a ≠ .iterateStopped 1) ∧ Noted H (Autotuner.act H s a).1 l

end Qtune.EndToEnd
