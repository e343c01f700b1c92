import Verif.EndToEnd.RobustSpec
import Verif.EndToEnd.NoiseModel

/-! # Devices whose evaluation fails now and then -/

namespace Qtune.EndToEnd

open Qtune.Tuner Qtune.Gradient Qtune.Autotuner

variable {n m : Nat} {X : Type}

/-- The evaluators return, but one of the parameters `relevant` is NaN. -/
def NoResult (T : Target) (relevant : List String) (outs : List Outcome) : Prop :=
  ∃ p vars, evaluate T outs = .ok (p, vars) ∧ ∃ l ∈ relevant, p.val l = none

/-- The point reached when the distance from `g` to `p` has been halved `i` times. -/
noncomputable def halved (g p : Vec n) (i : Nat) : Vec n := g + (1 / 2 : ℝ) ^ i • (p - g)

/-- Every evaluation returns what `S` says or fails: one of the parameters `relevant` is NaN then.  If evaluations fail
while the distance to a point is halved again and again, the evaluation after at most `L` failures works.  This holds
in particular if never more than `L` evaluations in a row fail. -/
structure Flaky (S : Setup n m) (relevant : List String) (outs : Nat → Volt (Fin n) → List Outcome) (L : Nat) : Prop
    where
  either : ∀ j (v : Vec n), outs j (volts v) = S.outs (volts v) ∨ NoResult S.target relevant (outs j (volts v))
  often : ∀ j (g p : Vec n), ∃ i ≤ L, outs (j + i) (volts (halved g p i)) = S.outs (volts (halved g p i))

/-- The tuning is complete within `N` calls, the voltages then meet the set points. -/
def CompletesFlaky (S : Setup n m) (outs : Nat → Volt (Fin n) → List Outcome) (I : Newton.EstI X (Fin n))
    (lstsq : Newton.Lstsq (Fin n)) (N : Nat)
    (s : Autotuner.State (OneTuner X n) (Volt (Fin n) × Nat) (Volt (Fin n))) : Prop :=
  ∃ M ≤ N, ∃ s', iterates (noisy I lstsq outs) M s = .ok s' ∧ isComplete (noisy I lstsq outs) s' = true ∧
    ∃ q : Vec n, s'.expt.1 = volts q ∧ SetPointsMet S q

end Qtune.EndToEnd
