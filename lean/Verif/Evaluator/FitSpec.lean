import Verif.Evaluator.FitModel
import Mathlib.Topology.MetricSpace.Basic
import Mathlib.Analysis.SpecialFunctions.Trigonometric.DerivHyp

/-!
# Specification of the evaluators that fit curves
-/

namespace Qtune.Evaluator.Fit

/-- The fit routine never converges: it raises `RuntimeError` for all data without NaN. -/
def NeverConverges (N : Numerics) : Prop := ∀ P, none ∉ P.y → ∃ msg, N.curveFit P = .error (.runtimeError msg)

/-- The numbers in a measurement result. -/
def NdArray.entries : NdArray → List Val
  | .d1 l => l
  | .d2 _ rows => rows.flatten
  | .more => []

/-- A line scan with `n` points: a single line, or several ones. -/
def LineScan (n : Nat) : NdArray → Prop
  | .d1 l => l.length = n
  | .d2 w rows => w = n ∧ rows ≠ [] ∧ ∀ r ∈ rows, r.length = n
  | .more => False

/-- Two lines with `n` points. -/
def TwoLines (n : Nat) (data : NdArray) : Prop :=
  ∃ a b : List Val, data = .d2 n [a, b] ∧ a.length = n ∧ b.length = n

/-- All entries of a Series are NaN. -/
def AllNan (s : Series) : Prop := ∀ e ∈ s, e.2 = none

/-- The `j`-th of `n` equidistant points of a scan from `center - range` to `center + range`. -/
noncomputable def scanPoint (center range : ℝ) (n j : Nat) : ℝ :=
  center - range + j * (2 * range / ((n : ℝ) - 1))

/-- The `j`-th point of the scan is one of those next to `p`. -/
def Nearest (center range : ℝ) (n j : Nat) (p : ℝ) : Prop :=
  j < n ∧ ∀ k < n, |scanPoint center range n j - p| ≤ |scanPoint center range n k - p|

/-- On `I` the signal `y` relaxes to the level `level` with the time constant `t`. -/
def Relaxes (y : ℝ → ℝ) (t level : ℝ) (I : Set ℝ) : Prop :=
  ∀ a ∈ I, ∀ b ∈ I, y b - level = Real.exp (-(b - a) / t) * (y a - level)

end Qtune.Evaluator.Fit
