import Verif.Signal.Model
import Verif.Series
import Mathlib.Data.Real.Archimedean

/-!
# Model of the evaluators LeadTransition and AveragingEvaluator (evaluator.py 507-577, 771-813)

The experiment is ideal: `set_gate_voltages` sets the gates to the given voltages and `read_gate_voltages` returns
them.  Its measurements are arbitrary: the `k`-th call of `measure` returns `outcome k` or raises.
-/

namespace Qtune.Evaluator

/-- A line scan (the options that are used, evaluator.py:527-528). -/
structure Scan where
  gate : String
  center : ℝ
  range : ℝ
  nPoints : Nat

/-- The experiment: its gate voltages, and the scans made so far with the voltages they were made at.
Interface of experiment.py:57-89. -/
structure World where
  volts : String → ℝ
  log : List (Scan × (String → ℝ))

/-- `LeadTransition` (evaluator.py:507-536): the settings that `evaluate` uses. -/
structure LeadTransition where
  shifting : List String
  width : ℝ
  measurements : List Scan

/-- The default measurements (evaluator.py:524-529). -/
noncomputable def defaultScans (sweeping : List String) : List Scan :=
  sweeping.map fun g => ⟨g, 0, 4e-3, 320⟩

/-- `current_gate_voltages.add(shift, fill_value=0.)` with `shift = Series(-w, [g])` (evaluator.py:541-542), for a gate
of the experiment. -/
noncomputable def displaced (cur : String → ℝ) (g : String) (w : ℝ) : String → ℝ :=
  fun h => if h = g then cur h + -1 * w else cur h

/-- The loop over the measurements (evaluator.py:540-544).  An exception of `measure` leaves the loop. -/
noncomputable def scanLoop (w : ℝ) (outcome : Nat → Except PyErr (List ℝ)) (cur : String → ℝ) :
    List (Scan × String) → World → World × Except PyErr (List (List ℝ))
  | [], s => (s, .ok [])
  | (m, g) :: rest, s =>
    let s1 : World := { s with volts := displaced cur g w }
    let s2 : World := { s1 with log := s1.log ++ [(m, s1.volts)] }
    match outcome s.log.length with
    | .error e => (s2, .error e)
    | .ok d => match scanLoop w outcome cur rest { s2 with volts := cur } with
      | (s3, .error e) => (s3, .error e)
      | (s3, .ok ds) => (s3, .ok (d :: ds))

/-- `series[label] = value`: replaces the entry or appends one.  Used in evaluator.py:566-569. -/
def setItem {α : Type} (s : List (String × α)) (l : String) (v : α) : List (String × α) :=
  if s.any (·.1 == l) then s.map fun p => if p.1 == l then (l, v) else p else s ++ [(l, v)]

/-- `int(.2e-3 / range * N_points)` (evaluator.py:561-562), for a positive range. -/
noncomputable def windowPoints (m : Scan) : Nat := ⌊(2e-4 : ℝ) / m.range * m.nPoints⌋₊

/-- The entry `i` of `np.linspace(center - range, center + range, N_points)` (evaluator.py:563-565); a single point is
the start. -/
noncomputable def linspace (m : Scan) (i : Nat) : ℝ :=
  m.center - m.range + i * (2 * m.range / (m.nPoints - 1))

/-- `process_raw_data` (evaluator.py:552-570), without the errors, which are constant.  All scans are evaluated with the
options of the first measurement.  Simplification: the data of a scan is one-dimensional (`mean(0)` done). -/
noncomputable def processRaw (first : Scan) : List (List ℝ × String) → List (String × ℝ) →
    Except PyErr (List (String × ℝ))
  | [], acc => .ok acc
  | (d, g) :: rest, acc => match Signal.leadIndex d (windowPoints first) with
    | .error e => .error e
    | .ok i =>
      if i < first.nPoints then processRaw first rest (setItem acc ("position_" ++ g) (linspace first i))
      else .error .indexError

/-- `LeadTransition.evaluate` (evaluator.py:537-550): the experiment afterwards, and the positions or the exception. -/
noncomputable def LeadTransition.evaluate (ev : LeadTransition) (outcome : Nat → Except PyErr (List ℝ)) (s : World) :
    World × Except PyErr (List (String × ℝ)) :=
  let cur := s.volts
  match scanLoop ev.width outcome cur (ev.measurements.zip ev.shifting) s with
  | (s1, .error e) => (s1, .error e)
  | (s1, .ok ds) =>
    match (match ev.measurements with
      | [] => .ok []
      | m :: _ => processRaw m (ds.zip ev.shifting) [] : Except PyErr (List (String × ℝ))) with
    | .error e => (s1, .error e)
    | .ok r => ({ s1 with volts := cur }, .ok r)

/-! ## AveragingEvaluator -/

/-- The entries that are not NaN.  Used in evaluator.py:800-801. -/
def present (l : List Val) : List ℝ := l.filterMap id

/-- `np.nanmean` (evaluator.py:800): NaN if there is no entry (a warning is given). -/
noncomputable def nanmean (l : List Val) : Val :=
  if present l = [] then none else some ((present l).sum / (present l).length)

/-- `np.nanvar(l) / np.count_nonzero(~np.isnan(l))` (evaluator.py:801): NaN if there is no entry; the variance is the
mean squared deviation from the mean (`ddof=0`). -/
noncomputable def nanvarOfMean (l : List Val) : Val :=
  let p := present l
  if p = [] then none
  else
    let m := p.sum / p.length
    some ((p.map fun x => (x - m) ^ 2).sum / p.length / p.length)

/-- The repetitions (evaluator.py:790-792): the `k`-th call of `evaluate` of the inner evaluator returns `outcome k`
(its first component; the errors are not used) or raises. -/
def repetitions (outcome : Nat → Except PyErr Series) : Nat → Except PyErr (List Series)
  | 0 => .ok []
  | n + 1 => match repetitions outcome n with
    | .error e => .error e
    | .ok l => match outcome n with
      | .error e => .error e
      | .ok s => .ok (l ++ [s])

/-- `[el[parameter] for el in parameter_list]` (evaluator.py:799): `KeyError` if the label is missing. -/
def column (p : String) : List Series → Except PyErr (List Val)
  | [] => .ok []
  | s :: rest => match s.lookup p with
    | none => .error .keyError
    | some v => match column p rest with
      | .error e => .error e
      | .ok l => .ok (v :: l)

/-- The loop over the parameters (evaluator.py:798-801). -/
noncomputable def averages (reps : List Series) : List String → Series → Series → Except PyErr (Series × Series)
  | [], a, b => .ok (a, b)
  | p :: ps, a, b => match column p reps with
    | .error e => .error e
    | .ok l => averages reps ps (setItem a p (nanmean l)) (setItem b p (nanvarOfMean l))

/-- `AveragingEvaluator.evaluate` (evaluator.py:786-803). -/
noncomputable def averagingEvaluate (n : Nat) (params : List String) (outcome : Nat → Except PyErr Series) :
    Except PyErr (Series × Series) :=
  match repetitions outcome n with
  | .error e => .error e
  | .ok reps => averages reps params [] []

end Qtune.Evaluator
