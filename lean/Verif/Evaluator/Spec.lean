import Verif.Evaluator.Model

/-!
# Specification of the evaluators

Small definitions in which the properties of `Props.lean` are stated.
-/

namespace Qtune.Evaluator

/-- `v'` is `v` with exactly the gate `g` changed, by `-w`. -/
def DisplacedBy (v v' : String → ℝ) (g : String) (w : ℝ) : Prop :=
  v' g = v g - w ∧ ∀ h, h ≠ g → v' h = v h

/-- None of the measurements of the call raises: the call makes one per pair of measurement and shifting gate. -/
def NoFailure (ev : LeadTransition) (outcome : Nat → Except PyErr (List ℝ)) (s : World) : Prop :=
  ∀ k < min ev.measurements.length ev.shifting.length, ∃ d, outcome (s.log.length + k) = .ok d

/-- The values of parameter `p` in the results of the first `n` repetitions, without NaN. -/
def measured (outcome : Nat → Except PyErr Series) (p : String) (n : Nat) : List ℝ :=
  (List.range n).filterMap fun k => match outcome k with
    | .ok s => s.val p
    | .error _ => none

/-- The mean of a list. -/
noncomputable def mean (l : List ℝ) : ℝ := l.sum / l.length

/-- The mean squared deviation from the mean. -/
noncomputable def meanSquare (l : List ℝ) : ℝ := (l.map fun x => (x - mean l) ^ 2).sum / l.length

end Qtune.Evaluator
