import Verif.EndToEnd.RobustSpec

/-! # A device with a kink -/

namespace Qtune.EndToEnd

open Qtune.Autotuner

/-- A continuous and, for `0 < b`, strictly increasing response: the slope is 1 up to the voltage 1 and `b` above. -/
noncomputable def kinked (b x : ℝ) : ℝ := if x ≤ 1 then x else 1 + b * (x - 1)

/-- However often `iterate` is called, it does not raise and the tuning is not complete. -/
def NeverComplete {W X V P C : Type} (H : Hierarchy W X V P C) (s : Autotuner.State W X V) : Prop :=
  ∀ N, ∃ s', iterates H N s = .ok s' ∧ isComplete H s' = false

end Qtune.EndToEnd
