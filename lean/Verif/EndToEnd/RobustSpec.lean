import Verif.EndToEnd.Steps
import Verif.EndToEnd.Props

/-! # Devices whose responses are not affine: what is assumed of them -/

namespace Qtune.EndToEnd

open Qtune.Tuner Qtune.Gradient

variable {n m : Nat}

/-- The responses, in units of the target, change by what the gradients say up to `κ` times the length of the
step and a constant `δ`: for every step, however long.  `κ` is for curvature, `δ` for jumps and for errors of the
evaluators (which are the same whenever the voltages are the same). -/
def NearlyAffine (S : Setup n m) (κ δ : ℝ) : Prop :=
  ∀ v s : Vec n, len (fun k => S.response k (v + s) / S.scale k - S.response k v / S.scale k -
    ∑ i, S.grad k i / S.scale k * s i) ≤ κ * len s + δ

/-- The gradients, in units of the target, are well conditioned: their combination with the coefficients `x` is
at least as long as `σ` times `x`. -/
def Conditioned (S : Setup n m) (σ : ℝ) : Prop :=
  ∀ x : Fin m → ℝ, σ * len x ≤ len fun i => ∑ k, x k * (S.grad k i / S.scale k)

/-- The tuner as it is set up: the target of `S`, one fresh one-sided finite difference estimator for
each parameter, all with steps of the length `η`, no queued voltages, no maximal step size. -/
structure InitialEven (S : Setup n m) (c : Vec n) (η : ℝ) (t : OneTuner (FD n) n) : Prop where
  target : t.solver.target = S.target
  /-- the estimators start at `c` or without a position -/
  ests : ∃ start : Fin m → Option (Vec n), (∀ k, start k = none ∨ start k = some c) ∧
    t.solver.ests = List.ofFn fun k => FD.new (start k) (fun _ => η) false
  gates : t.solver.gates = S.gates
  index : t.solver.values.index = S.target.names
  lastIndex : t.lastValues.index ⊆ S.target.names
  queued : t.queued = 0
  maxStep : t.maxStep = none

/-- What is missing to the set points at `c`, in units of the target. -/
noncomputable def missing (S : Setup n m) (c : Vec n) : ℝ :=
  len fun k => S.desired k - S.response k c / S.scale k

/-- Size of all gradients, in units of the target. -/
noncomputable def steepness (S : Setup n m) : ℝ := Real.sqrt (∑ k, ∑ i, (S.grad k i / S.scale k) ^ 2)

end Qtune.EndToEnd
