import Verif.Kalman.EstimatorSpec

/-! # Specifications: following the requests of a Kalman estimator -/

namespace Qtune.Kalman

open Matrix

/-- A call by somebody who makes the measurements that the estimator requests. -/
inductive Use (n : Nat)
  /-- call `require_measurement(gates)`; if it returns a position, measure there and call
  `update(position, value, variance, is_new_position)` -/
  | follow (gates : List (Fin n)) (value variance : ℝ) (isNew : Bool)
  /-- the same with `require_measurement(gates, tuned_jacobian)` -/
  | followTuned (gates : List (Fin n)) (r : Nat) (J : Matrix (Fin r) (Fin gates.length) ℝ)
      (value variance : ℝ) (isNew : Bool)
  /-- `update(position, value, variance, is_new_position)` anywhere else -/
  | update (position : Fin n → ℝ) (value variance : ℝ) (isNew : Bool)

/-- The gates are all different. -/
def Use.Proper {n : Nat} : Use n → Prop
  | .follow gates _ _ _ => gates.Nodup
  | .followTuned gates _ _ _ _ _ => gates.Nodup
  | .update _ _ _ _ => True

/-- The variance of the measured value. -/
def Use.noise {n : Nat} : Use n → ℝ
  | .follow _ _ v _ => v
  | .followTuned _ _ _ _ v _ => v
  | .update _ _ v _ => v

/-- One call: `true` if a requested measurement was made. -/
noncomputable def Use.step {n : Nat} (eigh : Eigh) (nullspace : Nullspace) (e : Est n) :
    Use n → Bool × Est n × Except PyErr Unit
  | .follow gates value variance isNew =>
    match e.require eigh gates with
    | none => (false, e, .ok ())
    | some q => (true, e.update q value variance isNew)
  | .followTuned gates _ J value variance isNew =>
    match e.requireTuned nullspace gates.get J with
    | none => (false, e, .ok ())
    | some q => (true, e.update q value variance isNew)
  | .update p value variance isNew => (false, e.update (fun i => some (p i)) value variance isNew)

/-- Calls one after the other up to the first exception: the number of requested measurements and the
estimator at the end. -/
noncomputable def Est.used {n : Nat} (eigh : Eigh) (nullspace : Nullspace) :
    List (Use n) → Est n → Nat × Except PyErr (Est n)
  | [], e => (0, .ok e)
  | u :: us, e =>
    match u.step eigh nullspace e with
    | (b, _, .error err) => (b.toNat, .error err)
    | (b, e, .ok ()) => (b.toNat + (e.used eigh nullspace us).1, (e.used eigh nullspace us).2)

end Qtune.Kalman
