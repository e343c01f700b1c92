import Verif.EndToEnd.LeadModel
import Verif.Evaluator.FitExactProps

/-!
# A tuner for a double dot

The parameters of the tuner are the load time, the tunnel coupling and positions of lead transitions.  They are evaluated by `NewLoadTime`,
`InterDotTCByLineScan` and `LeadTransition` from the data of the measurements.
-/

namespace Qtune.EndToEnd

open Qtune.Tuner Qtune.Gradient Qtune.Evaluator Qtune.Evaluator.Fit

/-- A double dot, and what is configured for its tuning.  The data of load scan and detuning scan are given as in C143. -/
structure Dot (n m : Nat) where
  /-- lead transitions -/
  bench : Bench n m
  loadRow : Row
  couplingRow : Row
  /-- settings and state of `NewLoadTime` when it is evaluated at given voltages -/
  load : Volt (Fin n) → LoadTime
  /-- waiting times of the load scan -/
  times : List ℝ
  /-- the measured values decay from `loadOffset + loadHeight` to `loadOffset` within the load time -/
  loadOffset : Vec n → ℝ
  loadHeight : Vec n → ℝ
  loadTime : Vec n → ℝ
  /-- settings and state of `InterDotTCByLineScan` when it is evaluated at given voltages -/
  detuning : Volt (Fin n) → InterDot
  /-- number of points of the detuning scan -/
  points : Nat
  /-- the detuning scan shows a transition of the width `coupling` on a straight line -/
  lineOffset : Vec n → ℝ
  lineSlope : Vec n → ℝ
  height : Vec n → ℝ
  center : Vec n → ℝ
  coupling : Vec n → ℝ

variable {n m : Nat}

/-- The rows of the target. -/
def Dot.row (D : Dot n m) : Fin (m + 2) → Row := Fin.cons D.loadRow (Fin.cons D.couplingRow D.bench.row)

/-- The voltages as numbers; the gates of an experiment have no other voltages.  Interface of experiment.py:57-89. -/
noncomputable def numbers (v : Volt (Fin n)) : Vec n := fun i => (v i).getD 0

/-- The data of the load scan: measured values and waiting times, as in `load_simulation` (basic_dqd.py:103-111) and as `NewLoadTime`
reads them (evaluator.py:468, 476-477, 482-483). -/
noncomputable def Dot.loadData (D : Dot n m) (v : Vec n) : NdArray :=
  .d2 D.times.length [D.times.map fun t => some (D.loadOffset v + D.loadHeight v * Real.exp (-t / D.loadTime v)), D.times.map some]

/-- The data of the detuning scan: one line, as in `detune_simulation` (basic_dqd.py:129-145) and as `InterDotTCByLineScan` reads it
(evaluator.py:375-388). -/
noncomputable def Dot.detuningData (D : Dot n m) (v : Volt (Fin n)) : NdArray :=
  .d1 (lineOf D.points fun j => transition (D.lineOffset (numbers v)) (D.lineSlope (numbers v)) (D.height (numbers v))
    (D.center (numbers v)) (D.coupling (numbers v)) (scanPoint (D.detuning v).center (D.detuning v).range D.points j))

/-- What the evaluators of the tuner return, in the order in which the tuner asks them (parameter_tuner.py:152-164): `NewLoadTime.evaluate`
(evaluator.py:467-479), `InterDotTCByLineScan.evaluate` (evaluator.py:374-399), `LeadTransition.evaluate` (evaluator.py:537-570). -/
noncomputable def Dot.outs (D : Dot n m) (N : Numerics) (v : Volt (Fin n)) : List Outcome :=
  ((D.load v).evaluate N (.ok (D.loadData (numbers v)))).2 :: ((D.detuning v).evaluate N (.ok (D.detuningData v))).2 :: D.bench.outs v

/-- What the tuner sees of the device, in the order of `Dot.row`. -/
noncomputable def Dot.reported (D : Dot n m) : Fin (m + 2) → Vec n → ℝ := Fin.cons D.loadTime (Fin.cons D.coupling D.bench.reported)

/-- The true parameters of the device, in the order of `Dot.row`. -/
noncomputable def Dot.truth (D : Dot n m) : Fin (m + 2) → Vec n → ℝ := Fin.cons D.loadTime (Fin.cons D.coupling D.bench.position)

/-- The set points. -/
noncomputable def Dot.desired (D : Dot n m) (k : Fin (m + 2)) : ℝ := (D.row k).desired.getD 0

/-- The rescaling factors. -/
noncomputable def Dot.scale (D : Dot n m) (k : Fin (m + 2)) : ℝ := (D.row k).rescaling.getD 1

/-- The device as in C125 and C158: `grad` are the gradients of the parameters. -/
noncomputable def Dot.setup (D : Dot n m) (N : Numerics) (grad : Fin (m + 2) → Vec n) : Setup n (m + 2) :=
  ⟨D.row, D.desired, D.scale, grad, D.reported, D.bench.gates, D.outs N, {y | y = 0 ∨ y = (1e-5 : ℝ) ^ 2}⟩

/-- A function of the voltages that changes by what the gradient `g` says, up to `κ` times the length of the step, at most `R` away
from `c`. -/
def Bends (f : Vec n → ℝ) (g : Vec n) (κ : ℝ) (c : Vec n) (R : ℝ) : Prop :=
  ∀ v s : Vec n, Near c R v → Near c R (v + s) → |f (v + s) - f v - ∑ i, g i * s i| ≤ κ * len s

/-- What is assumed: of the transitions as in C159; the load scan has at least three different waiting times, the detuning scan at
least eight points; at most `R` away from `c` the load time is between 2 and 300, both signals have a height, the width is
positive, and load time and width change nearly as their gradients say (`κ` and `κ'`, in units of the target). -/
structure Dot.Valid (D : Dot n m) (grad : Fin (m + 2) → Vec n) (c : Vec n) (R κ κ' : ℝ) : Prop where
  bench : D.bench.Valid (fun k => grad k.succ.succ) c R
  loadName : D.loadRow.name = "parameter_time_load"
  couplingName : D.couplingRow.name = "parameter_tunnel_coupling"
  desired : ∀ k, (D.row k).desired = some (D.desired k)
  scale : ∀ k, (D.row k).rescaling = some (D.scale k) ∧ D.scale k ≠ 0
  tolerance : ∀ k tol, (D.row k).tolerance = some tol → 0 < tol
  start : ∀ v, 2 ≤ (D.load v).initialCurvature ∧ (D.load v).initialCurvature ≤ 300
  times : ∃ x ∈ D.times, ∃ y ∈ D.times, ∃ z ∈ D.times, x < y ∧ y < z
  range : ∀ v, (D.detuning v).range ≠ 0
  points : 8 ≤ D.points
  loadTime : ∀ v, Near c R v → 2 ≤ D.loadTime v ∧ D.loadTime v ≤ 300 ∧ D.loadHeight v ≠ 0
  coupling : ∀ v, Near c R v → 0 < D.coupling v ∧ D.height v ≠ 0
  bendLoad : Bends (fun v => D.loadTime v / D.scale 0) (fun i => grad 0 i / D.scale 0) κ c R
  bendCoupling : Bends (fun v => D.coupling v / D.scale 1) (fun i => grad 1 i / D.scale 1) κ' c R

/-- The fits of detuning scans return positive widths: they start with one (evaluator.py:415, 427). -/
def PositiveWidths (N : Numerics) : Prop :=
  ∀ (P : Problem) (r : List ℝ), P.model = interDotCurve → P.p0.length = 5 → P.lower = [] → P.upper = [] → N.curveFit P = .ok r →
    0 < r.getD 4 0

end Qtune.EndToEnd
