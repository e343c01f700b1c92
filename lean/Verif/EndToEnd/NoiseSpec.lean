import Verif.EndToEnd.RobustSpec
import Verif.EndToEnd.NoiseModel

/-! # Noisy devices -/

namespace Qtune.EndToEnd

open Qtune.Tuner Qtune.Gradient Qtune.Autotuner

variable {n m : Nat} {X : Type}

/-- A device whose measured values differ from the responses, each time in another way. -/
structure Noisy (n m : Nat) where
  /-- target, gates and true responses (the results of the evaluators in this structure are not used) -/
  device : Setup n m
  /-- what is measured in the evaluation number `j` -/
  measured : Nat → Fin m → Vec n → ℝ
  /-- results of the evaluators in the evaluation number `j` -/
  outs : Nat → Volt (Fin n) → List Outcome

/-- What is seen of the device in the evaluation number `j`. -/
def Noisy.at (D : Noisy n m) (j : Nat) : Setup n m :=
  { D.device with response := D.measured j, outs := D.outs j }

/-- The evaluators return the measured values. -/
def Noisy.Sound (D : Noisy n m) : Prop := ∀ j, (D.at j).Sound

/-- The measured values are wrong by at most `ν`, in units of the target. -/
def Noisy.Bounded (D : Noisy n m) (ν : ℝ) : Prop :=
  ∀ j v, len (fun k => D.measured j k v / D.device.scale k - D.device.response k v / D.device.scale k) ≤ ν

/-- The tuning is complete within `N` calls, and the responses at the voltages are then off the set points by less
than the tolerances plus `ν`. -/
def Noisy.CompletesWithin (D : Noisy n m) (ν : ℝ) (I : Newton.EstI X (Fin n)) (lstsq : Newton.Lstsq (Fin n)) (N : Nat)
    (s : Autotuner.State (OneTuner X n) (Volt (Fin n) × Nat) (Volt (Fin n))) : Prop :=
  ∃ M ≤ N, ∃ s', iterates (noisy I lstsq D.outs) M s = .ok s' ∧ isComplete (noisy I lstsq D.outs) s' = true ∧
    ∃ q : Vec n, s'.expt.1 = volts q ∧ ∀ k tol, (D.device.row k).tolerance = some tol →
      |D.device.desired k - D.device.response k q / D.device.scale k| < tol + ν

end Qtune.EndToEnd
