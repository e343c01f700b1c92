import Verif.Kalman.Estimator
import Verif.Kalman.Spec

/-! # Specifications for the Kalman estimator -/

namespace Qtune.Kalman

open Matrix

/-- What is assumed of `numpy.linalg.eigh`: for a symmetric matrix the columns of the second result are
orthonormal and the `j`-th column is an eigenvector for the `j`-th eigenvalue. -/
def EighSpec (eigh : Eigh) : Prop :=
  ∀ k (A : Matrix (Fin k) (Fin k) ℝ), Aᵀ = A →
    (∀ i j, ∑ a, (eigh k A).2 a i * (eigh k A).2 a j = if i = j then 1 else 0) ∧
    ∀ a j, ∑ b, A a b * (eigh k A).2 b j = (eigh k A).1 j * (eigh k A).2 a j

/-- What is assumed of sympy's `nullspace`: there are free columns, one for each vector of the result,
such that each vector of the result is mapped to 0, is 1 at its own free column and 0 at the others,
and every vector that is mapped to 0 is the combination of them with its entries at the free columns as
coefficients. -/
def NullspaceSpec (nullspace : Nullspace) : Prop :=
  ∀ r k (J : Matrix (Fin r) (Fin k) ℝ), ∃ free : Fin (nullspace r k J).length → Fin k,
    (∀ a, J *ᵥ (nullspace r k J).get a = 0) ∧
    (∀ a b, (nullspace r k J).get a (free b) = if a = b then 1 else 0) ∧
    ∀ v, J *ᵥ v = 0 → v = ∑ a, v (free a) • (nullspace r k J).get a

/-- `v` has length 1 and moves the given gates only. -/
structure UnitOn {n : Nat} (gates : List (Fin n)) (v : Fin n → ℝ) : Prop where
  unit : ∑ i, v i ^ 2 = 1
  support : ∀ i, i ∉ gates → v i = 0

/-- The position displaced by `d`, for positions without NaN. -/
def displaced {n : Nat} (p d : Fin n → ℝ) : Fin n → Val := fun i => some (p i + d i)

/-! ### Histories of updates and restarts -/

/-- One call.  Histories are lists with the newest call first. -/
inductive Event (n : Nat)
  /-- `update(position, value, covariance, is_new_position)` -/
  | update (position : Fin n → ℝ) (value covariance : ℝ) (isNew : Bool)
  /-- `restart(new_position)` -/
  | restart (position : Fin n → ℝ)

/-- The reference point after a history: a restart clears it, an update sets it if there is none or if the
point is marked as new. -/
def reference {n : Nat} (start : Option ((Fin n → ℝ) × ℝ)) : List (Event n) → Option ((Fin n → ℝ) × ℝ)
  | [] => start
  | .restart _ :: _ => none
  | .update p v _ isNew :: past =>
    match reference start past with
    | none => some (p, v)
    | some ref => if isNew then some (p, v) else some ref

open Classical in
/-- The measurements that a history feeds into the filter, oldest first: the differences to the
reference point, for moves of length at least 1e-7. -/
noncomputable def fed {n : Nat} (start : Option ((Fin n → ℝ) × ℝ)) : List (Event n) → List (Call 1 n)
  | [] => []
  | .restart _ :: past => fed start past
  | .update p v cov _ :: past =>
    match reference start past with
    | none => fed start past
    | some (p₀, v₀) =>
      if 1 / 10000000 ≤ Real.sqrt (∑ i, (p i - p₀ i) ^ 2) then
        fed start past ++ [⟨fun i => p i - p₀ i, fun _ => v - v₀, some (cov • 1), none, true⟩]
      else fed start past

/-- The estimator after a history; the first exception ends it. -/
noncomputable def Est.after {n : Nat} (e : Est n) : List (Event n) → Except PyErr (Est n)
  | [] => .ok e
  | .restart p :: past =>
    match e.after past with
    | .error err => .error err
    | .ok e => .ok (e.restart fun i => some (p i))
  | .update p v cov isNew :: past =>
    match e.after past with
    | .error err => .error err
    | .ok e =>
      match e.update (fun i => some (p i)) v cov isNew with
      | (_, .error err) => .error err
      | (e, .ok ()) => .ok e

/-- A new estimator with the given filter and reference point. -/
def Est.new {n : Nat} (filter : KG 1 n) (p : Fin n → ℝ) (value : Option ℝ) (maxCov : Fin n → Limit)
    (eps : Fin n → ℝ) : Est n := ⟨filter, fun i => some (p i), value, maxCov, eps⟩

end Qtune.Kalman
