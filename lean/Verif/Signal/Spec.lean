import Verif.Signal.Model

/-!
# Specification of the signal processing
-/

namespace Qtune.Signal

/-- The difference of two points of the data at a distance `w`. -/
noncomputable def jump (data : List ℝ) (w i : Nat) : ℝ := |data.getD i 0 - data.getD (i + w) 0|

/-- `i` is the first position below `m` with the maximal value of `f`. -/
def FirstMax (f : Nat → ℝ) (m i : Nat) : Prop :=
  i < m ∧ (∀ j < m, f j ≤ f i) ∧ ∀ j < i, f j < f i

/-- A clean step: `k` points with value `a`, then `n - k` points with value `b`. -/
def cleanStep (n k : Nat) (a b : ℝ) : List ℝ := List.replicate k a ++ List.replicate (n - k) b

/-- The window that is averaged at position `i`: the last `width` points, or all if there are fewer. -/
def window (data : List ℝ) (width i : Nat) : List ℝ := (data.take (i + 1)).drop (i + 1 - width)

end Qtune.Signal
