import Verif.Kalman.Estimator

/-! # Model of `KalmanGradient.sugg_diff_position` (kalman_gradient.py:256-280) -/

namespace Qtune.Kalman

open Matrix

open Classical in
/-- `sugg_diff_position` (kalman_gradient.py:256-280): the eigenvector of the covariance for the largest
eigenvalue is split into `n_values` parts; the first part with nonzero norm is returned.  `numpy.argmax` of an
empty array raises `ValueError`; `next` of an exhausted generator raises `StopIteration` (`other 0`). -/
noncomputable def KG.suggestion {m n : Nat} (eigh : Eigh) (f : KG m n) : Except PyErr (Fin n → ℝ) :=
  let w := (eigh _ f.P).1                                                          -- line 271
  let v := (eigh _ f.P).2
  match (List.finRange (m * n)).argmax w with
  | none => .error .valueError
  | some j =>
    let z : Fin m → Fin n → ℝ := fun k i => v ⟨k.1 * n + i.1, flat_lt k i⟩ j         -- line 277
    match (List.finRange m).find? fun k => Real.sqrt (∑ i, z k i ^ 2) ≠ 0 with      -- line 280
    | none => .error (.other 0)
    | some k => .ok (z k)

end Qtune.Kalman
