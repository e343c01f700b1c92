import Verif.EndToEnd.RetryModel

/-! # The same state of the tuning -/

namespace Qtune.EndToEnd

open Qtune.Tuner Qtune.Autotuner

variable {X : Type} {n : Nat}

/-- The calls during which nothing goes wrong before the new state is reached. -/
def Fault.mild : Fault n → Bool
  | .none => true
  | .save _ => true
  | _ => false

/-- Two states of the tuning that differ in nothing but values that are written before they are read: the voltages a tuner
remembers, unless it is about to suggest the next voltages, and the voltages of the gates while all of them are about to be
set. -/
structure Same (a b : Autotuner.State (Shared X n) (Volt (Fin n)) (Volt (Fin n))) : Prop where
  index : a.index = b.index
  status : a.status = b.status
  pending : a.pending = b.pending
  ests : a.tuners.ests = b.tuners.ests
  tuner : ∀ i, ∃ v, a.tuners.get i = { b.tuners.get i with lastVoltage := v }
  suggesting : a.status = true → a.tuners.get a.index = b.tuners.get a.index
  gates : a.pending = none → a.expt = b.expt

end Qtune.EndToEnd
