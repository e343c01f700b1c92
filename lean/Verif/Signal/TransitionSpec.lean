import Verif.Signal.Model

/-!
# A transition in a line scan
-/

namespace Qtune.Signal

/-- A transition at 0, seen through a window of the half width `h`: the change over the window is the smaller the
farther the middle of the window is from 0. -/
def Peaked (f : ℝ → ℝ) (h : ℝ) : Prop := ∀ s t, |s| < |t| → |f (t + h) - f (t - h)| < |f (s + h) - f (s - h)|

/-- The data of a scan with `n` points at the distance `δ`, the first one at `x₀`, over a transition of the shape `f` at `c`. -/
noncomputable def transitionScan (f : ℝ → ℝ) (x₀ δ : ℝ) (n : Nat) (c : ℝ) : List ℝ :=
  (List.range n).map fun i : Nat => f (x₀ + (i : ℝ) * δ - c)

/-- The position nearest to `c` between `lo` and `hi`. -/
noncomputable def nearest (lo hi c : ℝ) : ℝ := max lo (min hi c)

end Qtune.Signal
