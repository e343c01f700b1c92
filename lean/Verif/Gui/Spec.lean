import Verif.Gui.Model

/-!
# Specification of the user interface
-/

namespace Qtune.Gui

/-- The number of calls of `iterate()`. -/
def iterations (evs : List Event) : Nat := evs.countP (· == .started)

/-- The user calls neither `start()` nor `step()`. -/
def NoOrder (as : List Act) : Prop := ∀ a ∈ as, a ≠ .call .start ∧ a ≠ .call .step

/-- Only the worker runs. -/
def OnlyWorker (as : List Act) : Prop := ∀ a ∈ as, ∃ t ok, a = .worker t ok

/-- The worker waits for an order. -/
def Idle (s : State) : Prop :=
  s.stop = false ∧ s.continuous = false ∧ s.stepped = false ∧ (s.w = .wait1 ∨ s.w = .wait2 ∨ s.w = .wait3)

/-- The states in executions from the beginning. -/
def Reachable (lg : Logger) (s : State) : Prop := ∃ as, (run lg init as).1 = s

end Qtune.Gui
