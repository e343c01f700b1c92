import Verif.Kalman.Model
import Mathlib.LinearAlgebra.Matrix.PosDef

/-! # Specifications for the Kalman filter -/

namespace Qtune.Kalman

open Matrix

/-- The variance of the estimate along `v` if `P` is the covariance matrix. -/
def variance {α : Type} [Fintype α] (P : Matrix α α ℝ) (v : α → ℝ) : ℝ := ∑ i, ∑ j, v i * P i j * v j

/-- Arguments of one call of `KalmanGradient.update`. -/
structure Call (m n : Nat) where
  diff : Fin n → ℝ
  values : Fin m → ℝ
  R : Option (Matrix (Fin m) (Fin m) ℝ)
  Q : Option (Matrix (Fin (m * n)) (Fin (m * n)) ℝ)
  predict : Bool

/-- Calls of `KalmanGradient.update` one after the other, also after an exception. -/
noncomputable def calls {m n : Nat} : List (Call m n) → KG m n → KG m n
  | [], f => f
  | c :: cs, f => calls cs (f.update c.diff c.values c.R c.Q c.predict).1

/-- Calls of `KalmanGradient.update` one after the other, up to the first exception. -/
noncomputable def run {m n : Nat} : List (Call m n) → KG m n → Except PyErr (KG m n)
  | [], f => .ok f
  | c :: cs, f =>
    match f.update c.diff c.values c.R c.Q c.predict with
    | (_, .error e) => .error e
    | (f, .ok ()) => run cs f

/-- The entries of a gradient one after the other, row by row. -/
def flat {m n : Nat} (G : Matrix (Fin m) (Fin n) ℝ) : Fin (m * n) → ℝ := fun j => G j.divNat j.modNat

/-- No dynamics is assumed: the state transition is the identity, there is no process noise, and no
fading memory. -/
structure Static {m n : Nat} (f : KG m n) : Prop where
  F : f.F = 1
  Q : f.Q = 0
  alpha : f.alpha = 1

/-- A call with the exact difference of the values of an affine response with gradient `G`, and with
positive definite measurement noise (`R₀` is the stored one). -/
structure ExactCall {m n : Nat} (G : Matrix (Fin m) (Fin n) ℝ) (R₀ : Matrix (Fin m) (Fin m) ℝ)
    (c : Call m n) : Prop where
  values : ∀ k, c.values k = ∑ i, G k i * c.diff i
  noise : (c.R.getD R₀).PosDef
  process : c.Q = none

/-- How strongly the calls have probed the direction `v`: the sum of `(H v)ᵀ R⁻¹ (H v)`.  For one
value with variance `r` this is the sum of `(d · v)² / r`. -/
noncomputable def excitation {m n : Nat} (R₀ : Matrix (Fin m) (Fin m) ℝ) (cs : List (Call m n))
    (v : Fin (m * n) → ℝ) : ℝ :=
  (cs.map fun c => variance (c.R.getD R₀)⁻¹ (matrixH m c.diff *ᵥ v)).sum

end Qtune.Kalman
