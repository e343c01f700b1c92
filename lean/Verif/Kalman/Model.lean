import Verif.Base
import Mathlib.Data.Real.Basic
import Mathlib.LinearAlgebra.Matrix.NonsingularInverse

/-!
# `KalmanGradient` (kalman_gradient.py) and the part of `filterpy.kalman.KalmanFilter` it uses

Numbers are reals.  The state vector is a column of `n_values * n_pos_dim` entries.
-/

namespace Qtune.Kalman

open Matrix

/-- The attributes of `KalmanFilter` that are used (kalman_gradient.py:109-138): state estimate,
covariance, state transition, process noise, measurement noise, fading factor. -/
structure Filter (σ ρ : Type) where
  x : σ → ℝ
  P : Matrix σ σ ℝ
  F : Matrix σ σ ℝ
  Q : Matrix σ σ ℝ
  R : Matrix ρ ρ ℝ
  alpha : ℝ

variable {σ ρ : Type} [Fintype σ] [DecidableEq σ] [Fintype ρ] [DecidableEq ρ]

/-- `KalmanFilter.predict(Q)` of filterpy without control input, called at kalman_gradient.py:196:
`x = F x`, `P = alpha² F P Fᵀ + Q`, the stored `Q` if the argument is `None`. -/
def Filter.predict (Q : Option (Matrix σ σ ℝ)) (f : Filter σ ρ) : Filter σ ρ :=
  { f with
    x := f.F *ᵥ f.x
    P := (f.alpha * f.alpha) • (f.F * f.P * f.Fᵀ) + Q.getD f.Q }

/-- The innovation covariance `S = H P Hᵀ + R`.  filterpy `KalmanFilter.update`, called in kalman_gradient.py:198. -/
def Filter.innovation (R : Matrix ρ ρ ℝ) (H : Matrix ρ σ ℝ) (f : Filter σ ρ) : Matrix ρ ρ ℝ :=
  H * (f.P * Hᵀ) + R

/-- The gain `K = P Hᵀ S⁻¹`.  filterpy `KalmanFilter.update`, called in kalman_gradient.py:198. -/
noncomputable def Filter.gain (R : Matrix ρ ρ ℝ) (H : Matrix ρ σ ℝ) (f : Filter σ ρ) : Matrix σ ρ ℝ :=
  f.P * Hᵀ * (f.innovation R H)⁻¹

open Classical in
/-- `KalmanFilter.update(z, R, H)` of filterpy, called at kalman_gradient.py:198: `S = H P Hᵀ + R`,
`K = P Hᵀ S⁻¹`, `x = x + K (z - H x)`, `P = (1 - K H) P (1 - K H)ᵀ + K R Kᵀ`; the stored `R` if the
argument is `None`.  `numpy.linalg.inv` raises `LinAlgError` for a singular `S`. -/
noncomputable def Filter.correct (z : ρ → ℝ) (R : Option (Matrix ρ ρ ℝ)) (H : Matrix ρ σ ℝ)
    (f : Filter σ ρ) : Filter σ ρ × Except PyErr Unit :=
  let R := R.getD f.R
  if (f.innovation R H).det = 0 then (f, .error .linAlgError)
  else
    let K := f.gain R H
    ({ f with
       x := f.x + K *ᵥ (z - H *ᵥ f.x)
       P := (1 - K * H) * f.P * (1 - K * H)ᵀ + K * R * Kᵀ }, .ok ())

/-- The filter of a `KalmanGradient` for `m` values and `n` positions.  kalman_gradient.py:107-138. -/
abbrev KG (m n : Nat) := Filter (Fin (m * n)) (Fin m)

/-- `KalmanGradient.__init__` (kalman_gradient.py:52-138) with the defaults: the identity for the
state transition, a zero gradient, the identity for both covariances (filterpy), no process noise.
Simplification: the arrays are given as functions of their indices, so that `reshape` is trivial except
for the gradient (`grad`). -/
def KG.new {m n : Nat} (F : Option (Matrix (Fin (m * n)) (Fin (m * n)) ℝ)) (x : Option (Fin (m * n) → ℝ))
    (P : Option (Matrix (Fin (m * n)) (Fin (m * n)) ℝ)) (R : Option (Matrix (Fin m) (Fin m) ℝ))
    (Q : Option (Matrix (Fin (m * n)) (Fin (m * n)) ℝ)) (alpha : ℝ) : KG m n :=
  ⟨x.getD 0, P.getD 1, F.getD 1, Q.getD 0, R.getD 1, alpha⟩

/-- The position in the state vector of entry `(k, i)` of the gradient (row-major `reshape`,
kalman_gradient.py:240). -/
theorem flat_lt {m n : Nat} (k : Fin m) (i : Fin n) : k.1 * n + i.1 < m * n :=
  calc k.1 * n + i.1 < k.1 * n + n := by have := i.2; omega
    _ = (k.1 + 1) * n := by ring
    _ ≤ m * n := Nat.mul_le_mul_right n k.2

/-- `KalmanGradient.grad` (kalman_gradient.py:228-240): `x.reshape(n_values, n_pos_dim)`. -/
def KG.grad {m n : Nat} (f : KG m n) : Matrix (Fin m) (Fin n) ℝ := fun k i => f.x ⟨k.1 * n + i.1, flat_lt k i⟩

/-- `__createMatrixH` (kalman_gradient.py:200-226): `block_diag` of `m` copies of the row `d`: row `k`
contains `d` in the columns `k * n, …, k * n + n - 1` and zeros elsewhere. -/
def matrixH (m : Nat) {n : Nat} (d : Fin n → ℝ) : Matrix (Fin m) (Fin (m * n)) ℝ := fun k j =>
  if h : k.1 * n ≤ j.1 ∧ j.1 < k.1 * n + n then d ⟨j.1 - k.1 * n, by omega⟩ else 0

/-- `KalmanGradient.update` (kalman_gradient.py:150-198). -/
noncomputable def KG.update {m n : Nat} (d : Fin n → ℝ) (z : Fin m → ℝ) (R : Option (Matrix (Fin m) (Fin m) ℝ))
    (Q : Option (Matrix (Fin (m * n)) (Fin (m * n)) ℝ)) (predict : Bool) (f : KG m n) :
    KG m n × Except PyErr Unit :=
  (if predict then f.predict Q else f).correct z R (matrixH m d)

end Qtune.Kalman
