import Verif.Kalman.Estimator

/-!
# `KalmanGradientEstimator` with numbers that may be NaN (gradient.py:227-371, kalman_gradient.py:150-240)

The same code as in `Kalman/Model.lean` and `Kalman/Estimator.lean`, for values and variances that evaluators report as NaN (`none`).  NaN is
propagated by sums and products, also by `0 * NaN`; `numpy.linalg.inv` of a matrix with the entry NaN is NaN and does not raise.
-/

namespace Qtune.Kalman

variable {σ : Type} [Fintype σ] [DecidableEq σ]

open Classical in
/-- A sum of floats, NaN if one of them is.  As in `numpy.dot`, which filterpy calls in kalman_gradient.py:196-198. -/
noncomputable def nsum (f : σ → Val) : Val := if ∃ i, f i = none then none else some (∑ i, (f i).getD 0)

/-- The product of two matrices.  `numpy.dot` in filterpy, called in kalman_gradient.py:196-198. -/
noncomputable def nmul (A B : σ → σ → Val) : σ → σ → Val := fun i k => nsum fun j => Val.mul (A i j) (B j k)

/-- A filter for one value whose gradient and covariance may contain NaN (kalman_gradient.py:109-138). -/
structure NFilter (σ : Type) where
  x : σ → Val
  P : σ → σ → Val
  F : Matrix σ σ ℝ
  Q : Matrix σ σ ℝ
  alpha : ℝ

/-- `KalmanFilter.predict()` of filterpy, called at kalman_gradient.py:196. -/
noncomputable def NFilter.predict (f : NFilter σ) : NFilter σ :=
  { f with
    x := fun i => nsum fun j => Val.mul (some (f.F i j)) (f.x j)
    P := fun i j => Val.add (Val.mul (some (f.alpha * f.alpha)) (nmul (nmul (fun i j => some (f.F i j)) f.P) (fun i j => some (f.F j i)) i j))
      (some (f.Q i j)) }

/-- `H P Hᵀ + R` for one value (filterpy `KalmanFilter.update`, called in kalman_gradient.py:198). -/
noncomputable def NFilter.innovation (R : Val) (h : σ → ℝ) (f : NFilter σ) : Val :=
  Val.add (nsum fun i => Val.mul (some (h i)) (nsum fun j => Val.mul (f.P i j) (some (h j)))) R

/-- `K = P Hᵀ S⁻¹` for one value (filterpy `KalmanFilter.update`, called in kalman_gradient.py:198). -/
noncomputable def NFilter.gain (R : Val) (h : σ → ℝ) (f : NFilter σ) : σ → Val := fun i =>
  Val.mul (nsum fun j => Val.mul (f.P i j) (some (h j))) ((f.innovation R h).map (·⁻¹))

open Classical in
/-- `KalmanFilter.update(z, R, H)` of filterpy for one value, called at kalman_gradient.py:198; `LinAlgError` for a singular matrix `S`. -/
noncomputable def NFilter.correct (z R : Val) (h : σ → ℝ) (f : NFilter σ) : NFilter σ × Except PyErr Unit :=
  if f.innovation R h = some 0 then (f, .error .linAlgError)
  else
    let K := f.gain R h
    let IKH : σ → σ → Val := fun i j => Val.sub (some (if i = j then 1 else 0)) (Val.mul (K i) (some (h j)))
    ({ f with
       x := fun i => Val.add (f.x i) (Val.mul (K i) (Val.sub z (nsum fun j => Val.mul (some (h j)) (f.x j))))
       P := fun i j => Val.add (nmul (nmul IKH f.P) (fun i j => IKH j i) i j) (Val.mul (Val.mul (K i) R) (K j)) }, .ok ())

/-- State of the estimator (gradient.py:244-259): filter, reference point and its value (`none` is `None`). -/
structure NEst (n : Nat) where
  filter : NFilter (Fin (1 * n))
  pos : Fin n → Val
  value : Option Val

/-- `estimate()` (gradient.py:268-269). -/
def NEst.estimate {n : Nat} (e : NEst n) : Fin n → Val := fun i => e.filter.x (i.cast (one_mul n).symm)

/-- `covariance()` (gradient.py:271-273). -/
def NEst.cov {n : Nat} (e : NEst n) : Fin n → Fin n → Val :=
  fun i j => e.filter.P (i.cast (one_mul n).symm) (j.cast (one_mul n).symm)

open Classical in
/-- `update` (gradient.py:330-360), as `Est.update`, for a value and a covariance that may be NaN. -/
noncomputable def NEst.update {n : Nat} (p : Fin n → Val) (value covariance : Val) (isNew : Bool) (e : NEst n) : NEst n × Except PyErr Unit :=
  let diff : Fin n → Val := fun i => (p i).sub (e.pos i)                             -- line 344
  match e.value with
  | none => ({ e with value := some value, pos := p }, .ok ())                       -- lines 346-349
  | some v₀ =>
    let move : NEst n → NEst n := fun e =>                                          -- lines 358-360
      if isNew then { e with value := some value, pos := p } else e
    if Real.sqrt (∑ i, (diff i).getD 0 ^ 2) < 1 / 10000000 then (move e, .ok ())      -- line 353
    else if ∃ i, diff i = none then (e, .error .valueError)
    else match e.filter.predict.correct (Val.sub value v₀) covariance
        (matrixH 1 (fun i => (diff i).getD 0) 0) with                                 -- lines 354-356
      | (f, .error err) => ({ e with filter := f }, .error err)
      | (f, .ok ()) => (move { e with filter := f }, .ok ())

/-- `change_position` and `restart` (gradient.py:265-266, 369-371), see `Est`. -/
def NEst.changePosition {n : Nat} (p : Fin n → Val) (e : NEst n) : NEst n := { e with pos := p }

/-- `restart` (gradient.py:369-371), see `Est.restart`. -/
def NEst.restart {n : Nat} (e : NEst n) : NEst n := { e with value := none }

/-- What can be done with an estimator.  gradient.py:265-371. -/
inductive NOp (n : Nat)
  | update (p : Fin n → Val) (value covariance : Val) (isNew : Bool)
  | changePosition (p : Fin n → Val)
  | restart

/-- One of these; exceptions leave the state that was reached.  gradient.py:265-371. -/
noncomputable def NOp.apply {n : Nat} (e : NEst n) : NOp n → NEst n
  | .update p v c b => (e.update p v c b).1
  | .changePosition p => e.changePosition p
  | .restart => e.restart

/-- All of them.  gradient.py:265-371. -/
noncomputable def NEst.run {n : Nat} (e : NEst n) (ops : List (NOp n)) : NEst n := ops.foldl NOp.apply e

end Qtune.Kalman
