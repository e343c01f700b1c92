import Verif.EndToEnd.SourceModel
import Verif.EndToEnd.RobustSpec

/-! # What is assumed of a voltage source and what is claimed of the tuning -/

namespace Qtune.EndToEnd

open Qtune.Tuner Qtune.Gradient Qtune.Autotuner

variable {n m : Nat} {X : Type}

/-- The voltages that the source applies are at a distance of at most `r` from the ones that it is told. -/
def Resolution (src : Volt (Fin n) → Volt (Fin n)) (r : ℝ) : Prop :=
  ∀ q : Vec n, ∃ p : Vec n, src (volts q) = volts p ∧ len (p - q) ≤ r

/-- The tuning is complete within `N` calls, and the voltages that are applied then meet the set points. -/
def CompletesSourced (S : Setup n m) (I : Newton.EstI X (Fin n)) (lstsq : Newton.Lstsq (Fin n))
    (src : Volt (Fin n) → Volt (Fin n)) (back : Bool) (N : Nat)
    (s : Autotuner.State (OneTuner X n) (Volt (Fin n)) (Volt (Fin n))) : Prop :=
  ∃ M ≤ N, ∃ s', iterates (sourced I lstsq S.outs src back) M s = .ok s' ∧
    isComplete (sourced I lstsq S.outs src back) s' = true ∧
    ∃ p : Vec n, src s'.expt = volts p ∧ SetPointsMet S p

/-- The tuner as it is set up at the voltages `c` that are read back: the target of `S`, one fresh one-sided finite
difference estimator for each parameter, whose steps are longer than `r` on all gates, no queued voltages, no maximal
step size. -/
structure InitialFine (S : Setup n m) (c : Vec n) (r : ℝ) (t : OneTuner (FD n) n) : Prop where
  target : t.solver.target = S.target
  /-- the estimators start at `c` or without a position -/
  ests : ∃ (start : Fin m → Option (Vec n)) (eps : Fin m → Vec n),
    (∀ k, start k = none ∨ start k = some c) ∧ (∀ k i, r < eps k i) ∧
    t.solver.ests = List.ofFn fun k => FD.new (start k) (eps k) false
  gates : t.solver.gates = S.gates
  index : t.solver.values.index = S.target.names
  lastIndex : t.lastValues.index ⊆ S.target.names
  queued : t.queued = 0
  maxStep : t.maxStep = none

end Qtune.EndToEnd
