import Verif.Evaluator.Model
import Mathlib.Analysis.SpecialFunctions.Trigonometric.DerivHyp
import Mathlib.Data.EReal.Basic

/-!
# Model of the evaluators that fit curves (evaluator.py:131-504)

`LeadTunnelTimePrefitVersion`, `LeadTunnelTimeByLeadScan`, `InterDotTCByLineScan` and `NewLoadTime`.  The numerical
libraries are unknown functions: `curve_fit` and `polyfit` may return anything that `Numerics.Spec` allows.
-/

namespace Qtune.Evaluator.Fit

/-! ## Data -/

/-- A numpy array of floats, as far as the evaluators distinguish arrays: one- and two-dimensional ones and those with
more dimensions.  Rows of a two-dimensional array have `width` entries.  Used in evaluator.py:377-385. -/
inductive NdArray
  | d1 (l : List Val)
  | d2 (width : Nat) (rows : List (List Val))
  | more

/-- What may be passed to `process_raw_data`: an array, `None`, a list of arrays or the pair that the property
`raw_data` returns (evaluator.py:67-69). -/
inductive Raw
  | none
  | array (a : NdArray)
  | list (l : List NdArray)
  | pair (x y : Raw)

/-- `raw_data[k, :]` (evaluator.py:168, 271, 476-477, 482-483): an `IndexError` for an array with less rows or one dimension, a
`TypeError` for everything that is no array.  Simplification: a row of an array with more than two dimensions is taken
as an `IndexError` too. -/
def Raw.row (k : Nat) : Raw → Except PyErr (List Val)
  | .array (.d2 _ rows) => match rows[k]? with
    | some r => .ok r
    | Option.none => .error .indexError
  | .array _ => .error .indexError
  | .none => .error .typeError
  | .list _ => .error .typeError
  | .pair _ _ => .error .typeError

/-- `l[i]` for an integer `i`: negative indices count from the end.  evaluator.py:173, 276-287, 486. -/
def pyIndex {α : Type} (l : List α) (i : Int) : Except PyErr α :=
  if 0 ≤ i then (match l[i.toNat]? with | some x => .ok x | none => .error .indexError)
  else if 0 ≤ i + l.length then (match l[(i + l.length).toNat]? with | some x => .ok x | none => .error .indexError)
  else .error .indexError

/-- The positions `start:stop` of an array with `n` entries: negative ones count from the end.
evaluator.py:188-189, 425-426. -/
def inSlice (n : Nat) (start stop : Int) (j : Nat) : Prop :=
  let norm : Int → Int := fun i => if i < 0 then max (i + n) 0 else min i n
  norm start ≤ j ∧ j < norm stop

open Classical in
/-- `a[start:stop] = v`.  evaluator.py:188-189, 425-426. -/
noncomputable def setSlice (start stop : Int) (v : ℝ) (a : List ℝ) : List ℝ :=
  a.mapIdx fun j x => if inSlice a.length start stop j then v else x

open Classical in
/-- `int(x)`: rounded towards zero.  evaluator.py:185-187, 420. -/
noncomputable def pyInt (x : ℝ) : Int := if 0 ≤ x then ⌊x⌋ else ⌈x⌉

open Classical in
/-- `round(x)`: to the nearest integer, to the even one of two.  evaluator.py:173, 276-284, 407-408. -/
noncomputable def pyRound (x : ℝ) : Int :=
  if Int.fract x < 1 / 2 then ⌊x⌋
  else if 1 / 2 < Int.fract x then ⌊x⌋ + 1
  else if Even ⌊x⌋ then ⌊x⌋ else ⌊x⌋ + 1

/-- `np.linspace(a, b, n)`.  evaluator.py:386-388. -/
noncomputable def linspaceList (a b : ℝ) (n : Nat) : List ℝ :=
  (List.range n).map fun (i : Nat) => a + i * ((b - a) / ((n : ℝ) - 1))

/-- `np.nanmean(y, 0)` for a two-dimensional array (evaluator.py:404-405), otherwise the data. -/
noncomputable def NdArray.averaged : NdArray → List Val
  | .d1 l => l
  | .d2 w rows => (List.range w).map fun j => nanmean (rows.map fun r => r.getD j none)
  | .more => []

/-! ## Numerical libraries -/

/-- The arguments of `optimize.curve_fit` (evaluator.py:181, 190-191, 300, 418, 430, 489, 492): the function of the
fit parameters and of `x`, start values, weights, bounds and data. -/
structure Problem where
  model : List ℝ → ℝ → ℝ
  p0 : List Val
  sigma : Option (List ℝ)
  lower : List EReal
  upper : List EReal
  x : List ℝ
  y : List Val

/-- Results of the numerical libraries.  Used in evaluator.py:181-191, 300, 407-408, 418-430, 489-492. -/
structure Numerics where
  /-- `optimize.curve_fit`: the first result -/
  curveFit : Problem → Except PyErr (List ℝ)
  /-- `np.polyfit(x, y, deg=1)` for an `x` that is not empty: slope and offset, NaN if the data contains NaN -/
  polyfit : List ℝ → List Val → Val × Val

/-- What is known of the libraries: `curve_fit` raises `ValueError` if the data contains NaN
(`np.asarray_chkfinite`); its result has one entry for each start value and is within the bounds. -/
structure Numerics.Spec (N : Numerics) : Prop where
  nan : ∀ P, none ∈ P.y → N.curveFit P = .error .valueError
  size : ∀ P r, N.curveFit P = .ok r → r.length = P.p0.length
  lower : ∀ P r, N.curveFit P = .ok r → ∀ (i : Nat) (b : EReal), P.lower[i]? = some b → i < r.length →
    b ≤ (r.getD i 0 : ℝ)
  upper : ∀ P r, N.curveFit P = .ok r → ∀ (i : Nat) (b : EReal), P.upper[i]? = some b → i < r.length →
    (r.getD i 0 : ℝ) ≤ b

/-- `np.polyfit(x, y, deg=1)`: a `TypeError` for empty data.  evaluator.py:407-408. -/
noncomputable def Numerics.line (N : Numerics) (x : List ℝ) (y : List Val) : Except PyErr (Val × Val) :=
  if x = [] then .error .typeError else .ok (N.polyfit x y)

/-! ## Model functions -/

/-- `half_time` (evaluator.py:207, 322). -/
noncomputable def halfTime : ℝ := 2e-6

open Classical in
/-- `func_lead_times_v1` (evaluator.py:205-228) at one point `x`; `last` is the last point of the array. -/
noncomputable def leadTimes1 (height tFall tRise beginRise beginFall offset last x : ℝ) : ℝ :=
  let cRise := Real.cosh (1 / 2 * halfTime / tRise)
  let sRise := Real.sinh (1 / 2 * halfTime / tRise)
  let cFall := Real.cosh (1 / 2 * halfTime / tFall)
  let sFall := Real.sinh (1 / 2 * halfTime / tFall)
  if x < beginRise then                                                            -- line 216
    let e := Real.exp (1 / 2 * (3 * halfTime - 2 * (x + last - (beginFall - halfTime))) / tFall)
    offset + 1 / 2 * (-1 * height) * (cFall - e) / sFall
  else if beginRise ≤ x ∧ x < beginFall then                                        -- line 220
    let e := Real.exp (1 / 2 * (halfTime - 2 * (x - beginRise)) / tRise)
    offset + 1 / 2 * height * (cRise - e) / sRise
  else
    let e := Real.exp (1 / 2 * (3 * halfTime - 2 * (x - (beginFall - halfTime))) / tFall)
    offset + 1 / 2 * (-1 * height) * (cFall - e) / sFall

open Classical in
/-- `func_lead_times_v2` (evaluator.py:317-346) at one point `x`; `last` is the last point of the array. -/
noncomputable def leadTimes2 (height tFall tRise beginRise beginFall offset slope offsetLinear lengthFall slope1
    offsetLinear1 lengthRise last x : ℝ) : ℝ :=
  let c := Real.cosh (1 / 2 * halfTime / tRise)
  let s := Real.sinh (1 / 2 * halfTime / tRise)
  if beginRise + lengthRise ≤ x ∧ x ≤ beginFall then                               -- line 329
    offset + 1 / 2 * height * (c - Real.exp (1 / 2 * (beginFall - 2 * x) / tRise)) / s
  else if x ≤ beginRise then                                                       -- line 334
    offset + 1 / 2 * (-1 * height) * (c - Real.exp (1 / 2 * (1 * beginFall - 2 * (x + last)) / tFall)) / s
  else if beginFall < x ∧ x < beginFall + lengthFall then offsetLinear + x * slope  -- line 338
  else if beginRise < x ∧ x < beginRise + lengthRise then offsetLinear1 + x * slope1
  else offset + 1 / 2 * (-1 * height) * (c - Real.exp (1 / 2 * (halfTime + 2 * beginFall - 2 * x) / tFall)) / s

/-- `func_inter_dot_coupling` (evaluator.py:443-444). -/
noncomputable def interDotModel (offset slope height position width x : ℝ) : ℝ :=
  offset + slope * x + 1 / 2 * height * (1 + Real.tanh ((x - position) / width))

/-- `func_load_time` (evaluator.py:503-504). -/
noncomputable def loadModel (offset height curvature x : ℝ) : ℝ :=
  offset + height * Real.exp (-1 * x / curvature)

/-! ## `InterDotTCByLineScan` -/

/-- The settings and the state of `InterDotTCByLineScan` (evaluator.py:352-372).  `parameters` are the names given to
the constructor; `rawX`, `rawY` is `raw_data`. -/
structure InterDot where
  parameters : List String
  center : ℝ
  range : ℝ
  fitResults : Option Series
  rawX : Raw
  rawY : Raw

/-- Labels of the fit parameters (evaluator.py:380, 393, 435). -/
def interDotLabels : List String := ["offset", "slope", "height", "position", "width"]

/-- The weights of the second fit (evaluator.py:420-426) for the result of the first fit: `position` is its entry 3,
`ptp` the range of the scan.  The weights are standard deviations: small ones count more. -/
noncomputable def interDotWeights (n : Nat) (ptp position : ℝ) : List ℝ :=
  let point := pyInt ((position + ptp) / 2 / ptp * n)                               -- line 420
  setSlice (max 0 (point - 4)) (min (point + 5) (n - 1)) (1 / 10)                    -- line 426
    (setSlice (max 0 (point - 15)) (min (point - 5) (n - 1)) 10 (List.replicate n 1))  -- line 425

/-- `residual` (evaluator.py:431-434): the mean squared deviation of the last 70 % of the points, in units of the
squared height. -/
noncomputable def interDotResidual (x : List ℝ) (y : List Val) (p : List ℝ) : Val :=
  let m : Nat := ⌊(3 / 10 : ℝ) * x.length⌋₊
  let res : List Val := ((x.zip y).drop m).map fun xy =>
    (xy.2.sub (some (interDotModel (p.getD 0 0) (p.getD 1 0) (p.getD 2 0) (p.getD 3 0) (p.getD 4 0) xy.1)))
  ((nanmean (res.map fun v => v.mul v)).div (some (p.getD 2 0 * p.getD 2 0))).mul (some 20000)

/-- The fits of `process_raw_data` (evaluator.py:406-436): fit result and residual.  Simplifications: an empty range, for which
`int` gets NaN or infinity in line 420, is a `ValueError`; NaN is read as 0 in the search
for the position, which is a start value only; `x` is an array with `n` points. -/
noncomputable def interDotFit (N : Numerics) (x : List ℝ) (y : List Val) : Except PyErr (List ℝ × Val) :=
  let n := x.length
  let q : Nat := (pyRound (1 / 4 * n)).toNat                                        -- lines 407-408
  let tail {α : Type} : List α → List α := fun l => if q = 0 then l else l.drop (l.length - q)
  match N.line (x.take q) (y.take q), N.line (tail x) (tail y) with
  | .error e, _ => .error e
  | _, .error e => .error e
  | .ok start, .ok stop =>
    let last := x.getLastD 0
    let height : Val := (stop.2.add (stop.1.mul (some last))).sub (start.2.add (start.1.mul (some last)))
    match Signal.leadIndex ((x.zip y).map fun xy =>
        ((xy.2.sub stop.2).sub (stop.1.mul (some xy.1))).getD 0) (n / 12) with          -- lines 412-413
    | .error e => .error e
    | .ok i =>
      let ptp := x.getLastD 0 - x.headD 0
      let p0 : List Val := [start.2, start.1, height, some (x.getD i 0), some (ptp / 8)]
      let model : List ℝ → ℝ → ℝ := fun p =>
        interDotModel (p.getD 0 0) (p.getD 1 0) (p.getD 2 0) (p.getD 3 0) (p.getD 4 0)
      match N.curveFit ⟨model, p0, none, [], [], x, y⟩ with                             -- line 418
      | .error e => .error e
      | .ok popt =>
        open Classical in
        if ptp = 0 then .error .valueError else
        match N.curveFit ⟨model, (popt.set 4 130e-6).map some,
            some (interDotWeights n ptp (popt.getD 3 0)), [], [], x, y⟩ with             -- line 430
        | .error e => .error e
        | .ok popt => .ok (popt, interDotResidual x y popt)

/-- `process_raw_data` (evaluator.py:401-436) for a pair of points and data.  Data with more than two dimensions is
rejected by `np.polyfit`; something that is no array has no `shape` or no `size`. -/
noncomputable def interDotProcess (N : Numerics) : Raw → Except PyErr (List ℝ × Val)
  | .pair (.array (.d1 x)) (.array (.d1 y)) => interDotFit N (x.map fun v => v.getD 0) y
  | .pair (.array (.d1 x)) (.array (.d2 w rows)) =>
    interDotFit N (x.map fun v => v.getD 0) (NdArray.d2 w rows).averaged
  | .pair _ (.array _) => .error .typeError
  | .pair _ _ => .error .attributeError
  | .array _ => .error .attributeError
  | .list _ => .error .attributeError
  | .none => .error .typeError

/-- A Series of NaN.  evaluator.py:380-382, 393-394, 473. -/
def nans (labels : List String) : Series := labels.map fun l => (l, none)

/-- The second half of `evaluate` (evaluator.py:389-399), after the data was stored.  `except RuntimeError` catches
`RuntimeError` only. -/
noncomputable def InterDot.finish (N : Numerics) (ev : InterDot) : InterDot × Except PyErr (Series × Series) :=
  match interDotProcess N (.pair ev.rawX ev.rawY) with
  | .error (.runtimeError _) => ({ ev with fitResults := some (nans interDotLabels) },
      .ok (nans ["parameter_tunnel_coupling"], nans ["parameter_tunnel_coupling"]))
  | .error e => (ev, .error e)
  | .ok (popt, residual) =>
    ({ ev with fitResults := some (interDotLabels.zip (popt.map some)) },
      .ok ([("parameter_tunnel_coupling", some (popt.getD 4 0))], [("parameter_tunnel_coupling", residual)]))

/-- The points of the scan (evaluator.py:386-388). -/
noncomputable def InterDot.points (ev : InterDot) (n : Nat) : Raw :=
  .array (.d1 ((linspaceList (ev.center - ev.range) (ev.center + ev.range) n).map some))

/-- `evaluate` (evaluator.py:374-399) for the data of the measurement, after `np.squeeze`. -/
noncomputable def InterDot.evaluate (N : Numerics) (measured : Except PyErr NdArray) (ev : InterDot) :
    InterDot × Except PyErr (Series × Series) :=
  match measured with
  | .error e => (ev, .error e)
  | .ok .more => ({ ev with rawY := .array .more, fitResults := some (nans interDotLabels) },
      .ok (nans ["parameter_tunnel_coupling"], nans ["parameter_tunnel_coupling"]))   -- lines 379-383
  | .ok (.d1 l) => InterDot.finish N { ev with rawY := .array (.d1 l), rawX := ev.points l.length }
  | .ok (.d2 w rows) => InterDot.finish N { ev with rawY := .array (.d2 w rows), rawX := ev.points w }

/-! ## `NewLoadTime` -/

/-- The settings and the state of `NewLoadTime` (evaluator.py:454-465); `startCurvature` is the last entry of
`initial_fit_arguments`. -/
structure LoadTime where
  parameters : List String
  initialCurvature : ℝ
  startCurvature : ℝ
  fitResults : Option Series
  rawX : Raw
  rawY : Raw

/-- Labels of the fit parameters (evaluator.py:461, 473, 496). -/
def loadLabels : List String := ["offset", "height", "curvature"]

open Classical in
/-- `np.nanmin`: NaN if there are only NaN, `ValueError` for empty data.  evaluator.py:486. -/
noncomputable def nanmin (l : List Val) : Except PyErr Val :=
  if l = [] then .error .valueError else .ok ((present l).min?)

/-- `residual` (evaluator.py:494-495). -/
noncomputable def loadResidual (x : List ℝ) (y : List Val) (p : List ℝ) : Val :=
  let res : List Val := (x.zip y).map fun xy =>
    xy.2.sub (some (loadModel (p.getD 0 0) (p.getD 1 0) (p.getD 2 0) xy.1))
  ((nanmean (res.map fun v => v.mul v)).div (some (p.getD 1 0 * p.getD 1 0))).mul (some 1500)

/-- `process_raw_data` (evaluator.py:481-496): fit result, residual and the start value of the curvature, which is
stored in `initial_fit_arguments`.  The second fit (lines 490-492) is made if the first one returns a negative
curvature.  Simplification: NaN in the points of the measurement is read as 0. -/
noncomputable def loadProcess (N : Numerics) (curvature stored : ℝ) (raw : Raw) :
    Except PyErr (List ℝ × Val × ℝ) :=
  match raw.row 1, raw.row 0 with
  | .error e, _ => .error e
  | _, .error e => .error e
  | .ok xs, .ok y =>
    let x := xs.map fun v => v.getD 0
    match nanmin y with
    | .error e => .error e
    | .ok low => match pyIndex y 0, pyIndex y (-1) with
      | .error e, _ => .error e
      | _, .error e => .error e
      | .ok first, .ok last =>
        let problem : ℝ → Problem := fun c =>
          ⟨fun p => loadModel (p.getD 0 0) (p.getD 1 0) (p.getD 2 0), [low, first.sub last, some c], none,
            [⊥, ⊥, (2 : ℝ)], [⊤, ⊤, (300 : ℝ)], x, y⟩
        match N.curveFit (problem curvature) with
        | .error e => .error e
        | .ok popt =>
          open Classical in
          if popt.getD 2 0 < 0 then
            match N.curveFit (problem (stored * 20)) with
            | .error e => .error e
            | .ok popt => .ok (popt, loadResidual x y popt, stored * 20)
          else .ok (popt, loadResidual x y popt, curvature)

/-- `evaluate` (evaluator.py:467-479).  The rows of the data are stored after the fit; the measurement returns an
array. -/
noncomputable def LoadTime.evaluate (N : Numerics) (measured : Except PyErr NdArray) (ev : LoadTime) :
    LoadTime × Except PyErr (Series × Series) :=
  match measured with
  | .error e => (ev, .error e)
  | .ok data =>
    let fit : Except PyErr (Series × Val × ℝ) :=
      match loadProcess N ev.initialCurvature ev.startCurvature (.array data) with
      | .error (.runtimeError _) => .ok (nans loadLabels, none, ev.startCurvature)
      | .error e => .error e
      | .ok (popt, residual, c) => .ok (loadLabels.zip (popt.map some), residual, c)
    match fit with
    | .error e => (ev, .error e)
    | .ok (result, residual, c) =>
      let ev : LoadTime := { ev with startCurvature := c }
      match (Raw.array data).row 0, (Raw.array data).row 1 with
      | .error e, _ => ({ ev with fitResults := some result }, .error e)
      | .ok y, .error e => ({ ev with fitResults := some result, rawY := .array (.d1 y) }, .error e)
      | .ok y, .ok x =>
        ({ ev with fitResults := some result, rawY := .array (.d1 y), rawX := .array (.d1 x) },
          .ok ([("parameter_time_load", result.val "curvature")], [("parameter_time_load", residual)]))

/-! ## The tunnel times -/

/-- `evaluation_arguments` (evaluator.py:144-147, 194, 248-251): start values of the next fit. -/
structure Start where
  tFall : ℝ
  tRise : ℝ
  beginRise : ℝ
  beginFall : ℝ

/-- The settings and the state of the two classes for tunnel times (evaluator.py:132-151, 236-255). -/
structure LeadTime where
  parameters : List String
  sampleRate : ℝ
  start : Start
  fitResults : Option Series
  rawX : Raw
  rawY : Raw

/-- Labels of the fit parameters of `LeadTunnelTimePrefitVersion` (evaluator.py:192-193). -/
def leadLabels : List String := ["height", "t_fall", "t_rise", "begin_rise", "begin_fall", "offset"]

/-- Labels of the fit parameters of `LeadTunnelTimeByLeadScan` (evaluator.py:301-304). -/
def scanLabels : List String := leadLabels ++ ["slope", "offset_linear", "length_lin_fall", "slope_1", "offset_linear_1", "length_lin_rise"]

/-- `raw_data[1, :] - raw_data[0, :]` (evaluator.py:168, 271).  `ValueError` for rows of different lengths cannot
happen. -/
noncomputable def difference (raw : Raw) : Except PyErr (List Val) :=
  match raw.row 1, raw.row 0 with
  | .error e, _ => .error e
  | _, .error e => .error e
  | .ok a, .ok b => .ok (a.zipWith Val.sub b)

/-- `np.mean`: NaN if there is NaN or no data.  evaluator.py:175, 278. -/
noncomputable def npMean (l : List Val) : Val :=
  if none ∈ l ∨ l = [] then none else some ((present l).sum / (present l).length)

/-- The first entries of `p0` (evaluator.py:173-175, 276-278). -/
noncomputable def leadStart (s : Start) (y : List Val) : Except PyErr (List Val) :=
  match pyIndex y (pyRound (1 / 4 * y.length)), pyIndex y (pyRound (3 / 4 * y.length)) with
  | .error e, _ => .error e
  | _, .error e => .error e
  | .ok a, .ok b => .ok [a.sub b, some s.tFall, some s.tRise, some s.beginRise, some s.beginFall, npMean y]

/-- The weights of the second fit (evaluator.py:184-189): `rise` and `fall` are the entries 3 and 4 of the result of the
first fit.  They are standard deviations: small ones count more. -/
noncomputable def prefitWeights (n : Nat) (rise fall : ℝ) : List ℝ :=
  let m : Int := pyInt (35 / 100 * n)
  let startRise := pyInt (rise / 4e-6 + 3)
  let startFall := pyInt (fall / 4e-6 + 3)
  setSlice startFall (startFall + m) (1 / 10) (setSlice startRise (startRise + m) (1 / 10) (List.replicate n 1))

/-- The fits in `process_raw_data` of `LeadTunnelTimePrefitVersion` (evaluator.py:165-197), without the residual, which
is not used. -/
noncomputable def prefitProcess (N : Numerics) (sampleRate : ℝ) (s : Start) (raw : Raw) : Except PyErr (List ℝ) :=
  match difference raw with
  | .error e => .error e
  | .ok y =>
    let n := y.length
    let x : List ℝ := (List.range n).map fun (i : Nat) => i / sampleRate
    let model : List ℝ → ℝ → ℝ := fun p t => leadTimes1 (p.getD 0 0) (p.getD 1 0) (p.getD 2 0) (p.getD 3 0)
      (p.getD 4 0) (p.getD 5 0) (x.getLastD 0) t
    match leadStart s y with
    | .error e => .error e
    | .ok p0 =>
      let lower : List EReal := [⊥, 0, 0, ⊥, ⊥, ⊥]
      let upper : List EReal := [⊤, ⊤, ⊤, ⊤, ⊤, ⊤]
      match N.curveFit ⟨model, p0, none, lower, upper, x, y⟩ with
      | .error e => .error e
      | .ok popt =>
        N.curveFit ⟨model, popt.map some, some (prefitWeights n (popt.getD 3 0) (popt.getD 4 0)), lower, upper, x, y⟩

/-- The slope and the offset of the line through the points `b` and `b + 2` (evaluator.py:279-288), and the difference
of their positions. -/
noncomputable def shortLine (x : List ℝ) (y : List Val) (b : Int) : Except PyErr (List Val) :=
  match pyIndex y (b + 2), pyIndex y b, pyIndex x (b + 2), pyIndex x b with
  | .ok y2, .ok y1, .ok x2, .ok x1 =>
    let slope := (y2.sub y1).div (some (x2 - x1))
    .ok [slope, y1.sub (slope.mul (some x1)), some (x2 - x1)]
  | _, _, _, _ => .error .indexError

/-- The fit in `process_raw_data` of `LeadTunnelTimeByLeadScan` (evaluator.py:268-309), without the residual and the plot. -/
noncomputable def scanProcess (N : Numerics) (sampleRate : ℝ) (s : Start) (raw : Raw) : Except PyErr (List ℝ) :=
  match difference raw with
  | .error e => .error e
  | .ok y =>
    let n := y.length
    let x : List ℝ := (List.range n).map fun (i : Nat) => i / sampleRate
    match leadStart s y with
    | .error e => .error e
    | .ok p0 => match shortLine x y (pyRound (s.beginFall / 10e-9)) with
      | .error e => .error e
      | .ok l => match shortLine x y (pyRound (s.beginRise / 10e-9)) with
        | .error e => .error e
        | .ok l1 =>
          let model : List ℝ → ℝ → ℝ := fun p t => leadTimes2 (p.getD 0 0) (p.getD 1 0) (p.getD 2 0) (p.getD 3 0)
            (p.getD 4 0) (p.getD 5 0) (p.getD 6 0) (p.getD 7 0) (p.getD 8 0) (p.getD 9 0) (p.getD 10 0)
            (p.getD 11 0) (x.getLastD 0) t
          let long : EReal := ((n / 161 / sampleRate : ℝ) : EReal)
          N.curveFit ⟨model, p0 ++ l ++ l1, none, [⊥, 0, 0, ⊥, ⊥, ⊥, ⊥, ⊥, 0, ⊥, ⊥, 0],
            [⊤, ⊤, ⊤, ⊤, ⊤, ⊤, ⊤, ⊤, long, ⊤, ⊤, long], x, y⟩

/-- The two series that are returned (evaluator.py:158-163, 261-266): the entries 2 and 1 of the fit result and a
fifth of them. -/
noncomputable def leadReport (popt : List ℝ) : Series × Series :=
  ([("parameter_time_rise", some (popt.getD 2 0)), ("parameter_time_fall", some (popt.getD 1 0))],
    [("parameter_time_rise", some (popt.getD 2 0 / 5)), ("parameter_time_fall", some (popt.getD 1 0 / 5))])

/-- The part that both `evaluate` methods share (evaluator.py:153-163, 257-266): `process` makes the fits of their
`process_raw_data`, `labels` are the names of the fit parameters.  The difference of the two rows is stored before the fit (lines 168-172, 271-274). -/
noncomputable def LeadTime.evaluate (labels : List String) (process : Raw → Except PyErr (List ℝ)) (next : List ℝ → Start → Start)
    (measured : Except PyErr NdArray) (ev : LeadTime) : LeadTime × Except PyErr (Series × Series) :=
  match measured with
  | .error e => (ev, .error e)
  | .ok data => match difference (.array data) with
    | .error e => (ev, .error e)
    | .ok y =>
      let x : List Val := (List.range y.length).map fun (i : Nat) => some (i / ev.sampleRate)
      let ev : LeadTime := { ev with rawX := .array (.d1 x), rawY := .array (.d1 y) }
      match process (.array data) with
      | .error e => (ev, .error e)
      | .ok popt =>
        ({ ev with fitResults := some (labels.zip (popt.map some)), start := next popt ev.start },
          .ok (leadReport popt))

/-- `LeadTunnelTimePrefitVersion.evaluate` (evaluator.py:153-163): the stored data is cleared first, the result is the
start of the next fit (line 194). -/
noncomputable def prefitEvaluate (N : Numerics) (measured : Except PyErr NdArray) (ev : LeadTime) :
    LeadTime × Except PyErr (Series × Series) :=
  { ev with rawX := .list [], rawY := .list [] }.evaluate leadLabels (prefitProcess N ev.sampleRate ev.start)
    (fun p _ => ⟨p.getD 1 0, p.getD 2 0, p.getD 3 0, p.getD 4 0⟩) measured

/-- `LeadTunnelTimeByLeadScan.evaluate` (evaluator.py:257-266). -/
noncomputable def scanEvaluate (N : Numerics) (measured : Except PyErr NdArray) (ev : LeadTime) :
    LeadTime × Except PyErr (Series × Series) :=
  ev.evaluate scanLabels (scanProcess N ev.sampleRate ev.start) (fun _ s => s) measured

/-- `process_raw_data()` without argument: the first half of `raw_data` of the evaluator is used by
`LeadTunnelTimePrefitVersion` (evaluator.py:166-167). -/
noncomputable def prefitAgain (N : Numerics) (ev : LeadTime) : Except PyErr (List ℝ) :=
  prefitProcess N ev.sampleRate ev.start ev.rawX

/-- `process_raw_data()` of `LeadTunnelTimeByLeadScan` (evaluator.py:269-270). -/
noncomputable def scanAgain (N : Numerics) (ev : LeadTime) : Except PyErr (List ℝ) :=
  scanProcess N ev.sampleRate ev.start (.pair ev.rawX ev.rawY)

end Qtune.Evaluator.Fit
