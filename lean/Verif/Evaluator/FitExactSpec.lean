import Verif.Evaluator.FitSpec

/-!
# Specification: fits of exact data
-/

namespace Qtune.Evaluator.Fit

/-- `p` has as many entries as there are fit parameters and respects the bounds. -/
structure Problem.Within (P : Problem) (p : List ℝ) : Prop where
  size : p.length = P.p0.length
  lower : ∀ (i : Nat) (b : EReal), P.lower[i]? = some b → i < p.length → b ≤ (p.getD i 0 : ℝ)
  upper : ∀ (i : Nat) (b : EReal), P.upper[i]? = some b → i < p.length → (p.getD i 0 : ℝ) ≤ b

/-- The curve with the parameters `p` goes through all points. -/
def Problem.Through (P : Problem) (p : List ℝ) : Prop := P.y = P.x.map fun t => some (P.model p t)

/-- The fit routines find exact fits: if the start values are numbers within the bounds and some curve within the bounds
goes through all points, `curve_fit` returns the parameters of such a curve; straight lines are fitted to numbers by numbers. -/
structure Numerics.Exact (N : Numerics) : Prop where
  spec : N.Spec
  line : ∀ x y, none ∉ y → ∃ a b : ℝ, N.polyfit x y = (some a, some b)
  fit : ∀ (P : Problem) (s : List ℝ), P.p0 = s.map some → P.Within s →
    (∃ p, P.Within p ∧ P.Through p) → ∃ r, N.curveFit P = .ok r ∧ P.Through r

/-- A line of `n` measured values: the `j`-th is `f j`. -/
noncomputable def lineOf (n : Nat) (f : Nat → ℝ) : List Val := (List.range n).map fun j => some (f j)

/-- The transition between two dots, as a function of the detuning `x`: a step of the given height and width on a
straight line. -/
noncomputable def transition (offset slope height position width x : ℝ) : ℝ :=
  offset + slope * x + height / 2 * (1 + Real.tanh ((x - position) / width))

end Qtune.Evaluator.Fit
