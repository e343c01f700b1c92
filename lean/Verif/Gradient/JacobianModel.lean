import Verif.Gradient.UtilProps

/-!
# Model of `gradient_min_evaluations` (util.py:133-157)
-/

namespace Qtune.Gradient

/-- `np.dot(parameter_diff, np.linalg.inv(voltage_diff))` (util.py:153-156): `EvaluationError` if the matrix is singular.  The differences of the
parameters and voltages are the columns of the two factors. -/
noncomputable def jacobianOf {m n : Nat} (voltageDiffs : List (Vec n)) (parameterDiffs : List (Vec m)) : Except PyErr (Matrix (Fin m) (Fin n) ℝ) :=
  if (columns voltageDiffs).det = 0 then .error .evaluationError
  else .ok (Matrix.of (fun j (k : Fin n) => parameterDiffs.getD k 0 j) * (columns voltageDiffs)⁻¹)

/-- `gradient_min_evaluations` (util.py:133-157).  Simplification: `n` is the size of the voltage points, which line 142 takes from the first one,
and all points have it; the parameters of a point are an array of the size `m`. -/
noncomputable def gradientMinEvaluations {m n : Nat} (parameters : List (Vec m)) (points : List (Vec n)) :
    Except PyErr (Matrix (Fin m) (Fin n) ℝ) :=
  if points.length ≠ parameters.length then .error .assertionError               -- line 141
  else if points = [] then .error .indexError                                    -- line 142
  else if points.length = n + 1 then jacobianOf (baseDiffs points) (baseDiffs parameters)      -- lines 144-146
  else if points.length = 2 * n then jacobianOf (pairDiffs points) (pairDiffs parameters)      -- lines 147-149
  else .error (.runtimeError "Invalid number of points")                         -- line 151

end Qtune.Gradient
