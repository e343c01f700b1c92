import Verif.EndToEnd.NoiseSpec

/-! # Drifting devices -/

namespace Qtune.EndToEnd

open Qtune.Tuner Qtune.Gradient Qtune.Autotuner

variable {n m : Nat} {X : Type}

/-- Two measurements, in units of the target, differ by what the gradients say up to `κ` times the length of the step,
a constant `δ` and `ω` for each evaluation between them: the device drifts by `ω` from one evaluation to the next, in
the long run without any limit. -/
def Noisy.Drifts (D : Noisy n m) (κ δ ω : ℝ) : Prop :=
  ∀ (i j : Nat) (v s : Vec n), i ≤ j →
    len (fun k => D.measured j k (v + s) / D.device.scale k - D.measured i k v / D.device.scale k -
      ∑ a, D.device.grad k a / D.device.scale k * s a) ≤ κ * len s + δ + ω * ((j : ℝ) - i)

/-- What is missing to the set points in the evaluation number `j` at `c`, in units of the target. -/
noncomputable def Noisy.missing (D : Noisy n m) (j : Nat) (c : Vec n) : ℝ :=
  len fun k => D.device.desired k - D.measured j k c / D.device.scale k

/-- The tuning is complete within `N` calls, and in the last evaluation, which was at the present voltages, all set
points were met. -/
def Noisy.CompletesDrifting (D : Noisy n m) (I : Newton.EstI X (Fin n)) (lstsq : Newton.Lstsq (Fin n)) (N : Nat)
    (s : Autotuner.State (OneTuner X n) (Volt (Fin n) × Nat) (Volt (Fin n))) : Prop :=
  ∃ M ≤ N, ∃ s', iterates (noisy I lstsq D.outs) M s = .ok s' ∧ isComplete (noisy I lstsq D.outs) s' = true ∧
    ∃ (q : Vec n) (j : Nat), s'.expt = (volts q, j + 1) ∧ ∀ k tol, (D.device.row k).tolerance = some tol →
      |D.device.desired k - D.measured j k q / D.device.scale k| < tol

end Qtune.EndToEnd
