import Verif.EndToEnd.RobustSpec

/-! # Devices that work only near the start -/

namespace Qtune.EndToEnd

open Qtune.Tuner Qtune.Gradient Qtune.Autotuner

variable {n m : Nat} {X : Type}

/-- What is assumed of target and evaluators, as `Setup.Sound`, but of the evaluators only for voltages in `A`; elsewhere
they may return anything or raise. -/
structure Setup.SoundOn (S : Setup n m) (A : Vec n → Prop) : Prop where
  gates_nodup : S.gates.Nodup
  gates_all : ∀ i, i ∈ S.gates
  names : S.target.names.Nodup
  desired : ∀ k, (S.row k).desired = some (S.desired k)
  scale : ∀ k, (S.row k).rescaling = some (S.scale k) ∧ S.scale k ≠ 0
  tolerance : ∀ k tol, (S.row k).tolerance = some tol → 0 < tol
  nonempty : m ≠ 0
  evaluators : ∀ v : Vec n, A v → ∃ y : Fin m → ℝ, (∀ k, y k ∈ S.variances) ∧
    evaluate S.target (S.outs fun i => some (v i)) = .ok (List.ofFn fun k => ((S.row k).name, some (S.response k v)),
      List.ofFn fun k => ((S.row k).name, some (y k)))

/-- The responses are nearly affine, as `NearlyAffine`, for steps within `A`. -/
def NearlyAffineOn (S : Setup n m) (A : Vec n → Prop) (κ δ : ℝ) : Prop :=
  ∀ v s : Vec n, A v → A (v + s) → len (fun k => S.response k (v + s) / S.scale k - S.response k v / S.scale k -
    ∑ i, S.grad k i / S.scale k * s i) ≤ κ * len s + δ

/-- At most `R` away from `c`. -/
def Near (c : Vec n) (R : ℝ) (v : Vec n) : Prop := len (v - c) ≤ R

/-- The tuning is complete within `N` calls, none of which raises, the voltages then meet the set points, and the gates
have voltages in `A` all the time. -/
def CompletesInside (S : Setup n m) (I : Newton.EstI X (Fin n)) (lstsq : Newton.Lstsq (Fin n)) (A : Vec n → Prop) (N : Nat)
    (s : Autotuner.State (OneTuner X n) (Volt (Fin n)) (Volt (Fin n))) : Prop :=
  ∃ M ≤ N, (∃ s', iterates (hierarchy I lstsq S.outs) M s = .ok s' ∧ isComplete (hierarchy I lstsq S.outs) s' = true ∧
      ∃ q : Vec n, s'.expt = volts q ∧ SetPointsMet S q) ∧
    ∀ j ≤ M, ∃ s', iterates (hierarchy I lstsq S.outs) j s = .ok s' ∧ ∃ v, s'.expt = volts v ∧ A v

end Qtune.EndToEnd
