import Verif.Kalman.Spec

/-! # Specifications for the Kalman filter with fading memory -/

namespace Qtune.Kalman

open Matrix

/-- No dynamics and no process noise, but a fading memory with the factor `a`. -/
structure Fading {m n : Nat} (a : ℝ) (f : KG m n) : Prop where
  F : f.F = 1
  Q : f.Q = 0
  alpha : f.alpha = a

/-- A call of `update` with the default `predict=True`, without process covariance, with positive definite
measurement noise (`R₀` is the stored one). -/
structure Plain {m n : Nat} (R₀ : Matrix (Fin m) (Fin m) ℝ) (c : Call m n) : Prop where
  noise : (c.R.getD R₀).PosDef
  process : c.Q = none
  predict : c.predict = true

/-- How strongly the calls have probed the direction `v` if with every later call a measurement counts less
by the factor `a²`: the sum of `(H v)ᵀ R⁻¹ (H v) / a^(2 j)`, where `j` later calls follow. -/
noncomputable def probed {m n : Nat} (a : ℝ) (R₀ : Matrix (Fin m) (Fin m) ℝ) (v : Fin (m * n) → ℝ) :
    List (Call m n) → ℝ
  | [] => 0
  | c :: cs => variance (c.R.getD R₀)⁻¹ (matrixH m c.diff *ᵥ v) / (a ^ 2) ^ cs.length + probed a R₀ v cs

/-- Squared length. -/
def sqLen {α : Type} [Fintype α] (v : α → ℝ) : ℝ := ∑ i, v i ^ 2

end Qtune.Kalman
