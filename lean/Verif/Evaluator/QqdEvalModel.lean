import Verif.Evaluator.QqdModel
import Mathlib.Analysis.SpecialFunctions.Pow.Real

/-!
# Model of `evaluate` of the other evaluators of quadruple dots (sm_tune_qqd.py:288-292, 328-332, 358-369, 383-396, 412-425, 440-452)

The values that the analysis in MATLAB returns are arguments of the model.
-/

namespace Qtune.Evaluator

/-- `pd.Series(data=v, index=labels)` for a single value: each label gets it.  sm_tune_qqd.py:292, 332, 444-445. -/
def scalarSeries (v : Val) (labels : List String) : Series := labels.map fun l => (l, v)

/-- `pd.Series(data=vs, index=labels)` for a list of values: `ValueError` if the numbers differ.  sm_tune_qqd.py:362-363, 388-389, 417-418. -/
def listSeries (vs : List Val) (labels : List String) : Except PyErr Series :=
  if vs.length = labels.length then .ok (labels.zip vs) else .error .valueError

/-- Both Series that `evaluate` returns; the first one is built first.  sm_tune_qqd.py:362-363, 388-389, 417-418. -/
def both (a b : Except PyErr Series) : Except PyErr (Series × Series) := a.bind fun x => b.map fun y => (x, y)

/-- `QQDLine.evaluate` (sm_tune_qqd.py:288-292). -/
noncomputable def lineEvaluate (params : List String) (lo hi : EReal) (widths : List Val) : Except PyErr (Series × Series) :=
  .ok (scalarSeries (lineProcess lo hi widths).1 params, scalarSeries (lineProcess lo hi widths).2 params)

/-- `QQDLead.evaluate` (sm_tune_qqd.py:328-332). -/
noncomputable def leadEvaluate (params : List String) (error ref : ℝ) (lo hi : EReal) (value residuals : Val) :
    Except PyErr (Series × Series) :=
  .ok (scalarSeries (leadProcess error ref lo hi value residuals).1 params, scalarSeries (leadProcess error ref lo hi value residuals).2 params)

/-- `QQDSensor1D.evaluate` (sm_tune_qqd.py:358-369). -/
noncomputable def sensor1DEvaluate (params : List String) (xVal minGrad : Val) : Except PyErr (Series × Series) :=
  both (listSeries [xVal, Val.abs minGrad] params) (listSeries [none, none] params)

/-- `QQDSensor2D.evaluate` (sm_tune_qqd.py:383-396). -/
noncomputable def sensor2DEvaluate (params : List String) (xVal yVal minGrad : Val) : Except PyErr (Series × Series) :=
  both (listSeries [xVal, yVal, Val.abs minGrad] params) (listSeries [none, none, none] params)

/-- `QQDCharge.evaluate` (sm_tune_qqd.py:412-425).  `np.squeeze` turns a single position into an array without dimensions, from which
`pd.Series` takes the value for all labels.  Simplification: the array of MATLAB is a row or a column. -/
def chargeEvaluate (params : List String) (error : ℝ) (positions : List Val) : Except PyErr (Series × Series) :=
  match positions with
  | [v] => .ok (scalarSeries v params, scalarSeries (some error) params)
  | vs => both (listSeries vs params) (listSeries (vs.map fun _ => some error) params)

/-- `QQDDistTP.evaluate` (sm_tune_qqd.py:440-452).  `right - left` raises `ValueError` if the numbers of coordinates differ (simplification: a
point with a single coordinate, which numpy would subtract from all, does not occur). -/
noncomputable def distEvaluate (params : List String) (error : ℝ) (right left : List ℝ) : Except PyErr (Series × Series) :=
  if right.length = left.length then
    .ok (scalarSeries (some (Real.sqrt ((right.zipWith (· - ·) left).map (· ^ 2)).sum)) params, scalarSeries (some error) params)
  else .error .valueError

end Qtune.Evaluator
