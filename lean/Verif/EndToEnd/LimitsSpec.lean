import Verif.EndToEnd.SourceSpec

/-! # Voltage sources with limits -/

namespace Qtune.EndToEnd

open Qtune.Tuner Qtune.Gradient Qtune.Autotuner

variable {n m : Nat}

/-- A voltage source that cannot leave the region `A`: voltages in `A` are applied as they are told, and instead of
others it applies some in `A` that are at least as close to every point of `A`. -/
structure Limited (src : Volt (Fin n) → Volt (Fin n)) (A : Vec n → Prop) : Prop where
  inside : ∀ q, A q → src (volts q) = volts q
  nearest : ∀ q, ∃ p, src (volts q) = volts p ∧ A p ∧ ∀ z, A z → len (p - z) ≤ len (q - z)

/-- All gates are between `lo` and `hi`. -/
def Between (lo hi : Vec n) (q : Vec n) : Prop := ∀ i, lo i ≤ q i ∧ q i ≤ hi i

/-- Gate by gate, what is below `lo` becomes `lo` and what is above `hi` becomes `hi`.  The limits of
MATLAB/+qtune/set_qqd_gate_voltages.m and of the hardware are of this kind. -/
noncomputable def clip (lo hi : Vec n) (x : Volt (Fin n)) : Volt (Fin n) := fun i => (x i).map fun a => max (lo i) (min (hi i) a)

/-- The tuner as it is set up at the voltages `c` that are read back: the target of `S`, one fresh one-sided finite
difference estimator for each parameter, whose steps have at most the length `B`, no queued voltages. -/
structure InitialWithin (S : Setup n m) (c : Vec n) (B : ℝ) (t : OneTuner (FD n) n) : Prop where
  target : t.solver.target = S.target
  /-- the estimators start at `c` or without a position -/
  ests : ∃ (start : Fin m → Option (Vec n)) (eps : Fin m → Vec n),
    (∀ k, start k = none ∨ start k = some c) ∧ (∀ k i, 0 < eps k i ∧ eps k i ≤ B) ∧
    t.solver.ests = List.ofFn fun k => FD.new (start k) (eps k) false
  gates : t.solver.gates = S.gates
  index : t.solver.values.index = S.target.names
  lastIndex : t.lastValues.index ⊆ S.target.names
  queued : t.queued = 0

end Qtune.EndToEnd
