import Verif.Autotuner.Spec

/-! # Specification vocabulary for interrupted calls: what the log of the events says -/

namespace Qtune.Autotuner

variable {W X V P C : Type}

/-- `post` is a stretch of the log without writes, restarts and changes of targets, in which each of
the tuners `0, …, n-1` reported "tuned" and was not evaluated again afterwards, nor was any tuner
below it. -/
structure CertifiedStretch (n : Nat) (post : List (Event W V P)) : Prop where
  noReset : ∀ e ∈ post, ¬ e.IsReset
  reports : ∀ i, i < n → ∃ a v b, post = a ++ .evaluated i v (.ok true) :: b ∧
    ∀ j v' r, Event.evaluated j v' r ∈ b → i < j

/-- What may happen between the report that tuner `i` is not tuned and a suggestion of tuner `i`:
saving, and suggestions of the same tuner that failed or got lost. -/
def SuggestsAgain (i : Nat) : Event W V P → Prop
  | .saved _ => True
  | .suggested j _ _ => j = i
  | _ => False

/-- What may happen between the suggestion of voltages `v` and a write of `v`: saving and other
writes of `v`. -/
def WritesAgain (v : V) : Event W V P → Prop
  | .saved _ => True
  | .wrote v' _ => v' = v
  | _ => False

end Qtune.Autotuner
