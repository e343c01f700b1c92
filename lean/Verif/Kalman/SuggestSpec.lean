import Verif.Kalman.Suggest
import Verif.Kalman.EstimatorSpec
import Verif.Kalman.FadingSpec

/-! # Specifications for the suggested difference -/

namespace Qtune.Kalman

open Matrix

/-- The variance of the estimated change of value `k` along `u`. -/
def KG.uncertainty {m n : Nat} (f : KG m n) (k : Fin m) (u : Fin n → ℝ) : ℝ :=
  variance (fun i j => f.P ⟨k.1 * n + i.1, flat_lt k i⟩ ⟨k.1 * n + j.1, flat_lt k j⟩) u

/-- Along `d` (per length) the change of some value is known worst: not better than the change of any value
along any direction. -/
def KG.MostUncertain {m n : Nat} (f : KG m n) (d : Fin n → ℝ) : Prop :=
  d ≠ 0 ∧ ∃ k, ∀ k' u, f.uncertainty k' u * sqLen d ≤ f.uncertainty k d * sqLen u

/-- The parts of a matrix that belong to different values are zero. -/
def Uncoupled {m n : Nat} (P : Matrix (Fin (m * n)) (Fin (m * n)) ℝ) : Prop :=
  ∀ i j, i.divNat ≠ j.divNat → P i j = 0

end Qtune.Kalman
