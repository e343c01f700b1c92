import Verif.Evaluator.FitModel
import Mathlib.Analysis.SpecialFunctions.Trigonometric.Basic

/-!
# Model of the simulated scans of sensing dots (basic_dqd.py:114-127)

Numbers are real numbers; `v` are the voltages that the experiment passes (basic_dqd.py:98-100).
-/

namespace Qtune.ScanSim

open Qtune.Evaluator.Fit (linspaceList)

/-- `np.arange(start, stop, step)` with numbers that are not integers.  basic_dqd.py:115. -/
noncomputable def arange (start stop step : ℝ) : List ℝ :=
  (List.range ⌈(stop - start) / step⌉₊).map fun (i : Nat) => start + i * step

/-- `gate_voltages[gate]`: `KeyError` if there is no such gate.  basic_dqd.py:116-117, 122-123. -/
def voltage (v : List (String × ℝ)) (gate : String) : Except PyErr ℝ :=
  match v.lookup gate with
  | some x => .ok x
  | none => .error .keyError

/-- The options of a line scan that matter here: gate, center, range and number of points.  evaluator.py:608-611. -/
structure LineOptions where
  gate : String
  center : ℝ
  range : ℝ
  nPoints : Nat

/-- `ss1d_simulation` (basic_dqd.py:114-117).  The argument `measurement` is not used. -/
noncomputable def ss1d (v : List (String × ℝ)) (_measurement : LineOptions) : Except PyErr (List ℝ) := do
  let points := arange (-4e-3) 4e-3 (8e-3 / 1280)
  let sdb1 ← voltage v "SDB1"
  let n ← voltage v "N"
  let sdb2 ← voltage v "SDB2"
  return points.map fun p => (1 + 1e3 * sdb1) * (1 + sdb1 - n) * Real.exp (-0.5 * (p + sdb2) ^ 2 / 2e-6)

/-- `ss2d_simulation` (basic_dqd.py:120-127): lines along the second gate, one for each point of the first gate; `gate1` and `gate2` are the
options of the simulator.  The argument `measurement` is not used. -/
noncomputable def ss2d (gate1 gate2 : String) (v : List (String × ℝ)) : Except PyErr (List (List ℝ)) := do
  let g2 ← voltage v gate2
  let g1 ← voltage v gate1
  let xs := linspaceList (-5 + 1e3 * g2) (5 + 1e3 * g2) 104
  let ys := linspaceList (-5 + 1e3 * g1) (5 + 1e3 * g1) 20
  return ys.map fun y => xs.map fun x => (1 + y) * (1 - 0.1 * |x - 1e3 * g2| - 0.1 * |y - 1e3 * g1|) * Real.sin (x + y)

end Qtune.ScanSim
