import Verif.Series
import Mathlib.Data.Fintype.Basic
import Mathlib.Algebra.BigOperators.Group.Finset.Basic
import Mathlib.Analysis.Real.Sqrt
import Mathlib.Algebra.Order.Floor.Ring

/-!
# Model of `ParameterTuner` and `SubsetTuner` (parameter_tuner.py:29-285)

Gates are the elements of a finite type `ι`; voltages are functions `ι → Val`.
Parameters are labelled by strings.
-/

namespace Qtune.Tuner

/-- Voltages of all gates of the experiment.  parameter_tuner.py:101-111. -/
abbrev Volt (ι : Type) := ι → Val

/-- What a tuner uses of its solver (solver.py:75-151).  A position suggested by a solver
mentions some of the gates: `none` means that the gate is not mentioned. -/
structure SolverI (S ι : Type) where
  /-- `solver.target` -/
  target : S → Target
  /-- the setter of `solver.current_position` (solver.py:88-91) -/
  setPosition : Volt ι → S → S
  /-- `solver.update_after_step(position, values, variances)` -/
  update : Volt ι → Series → Series → S → S × Except PyErr Unit
  /-- `solver.suggest_next_position(tuned_parameters)` -/
  suggest : List String → S → S × Except PyErr (ι → Option Val)

/-- State of a `SubsetTuner` (parameter_tuner.py:54-95, 211-216). `maxStep = none` is NaN. -/
structure SubsetTuner (S ι : Type) where
  solver : S
  tunedVoltages : List (Volt ι)
  lastVoltage : Volt ι
  lastValues : Series
  lastVariances : Series
  lastFailed : Bool
  evaluatable : List (Volt ι)
  maxStep : Val
  maxNumber : Int
  queued : Int

variable {S ι : Type}

/-- One evaluator call: the parameters and variances it returns, or the exception.
Called in parameter_tuner.py:157-163; evaluator.py:71. -/
abbrev Outcome := Except PyErr (Series × Series)

/-- The loop over the evaluators (parameter_tuner.py:157-163) with `pd.concat`: evaluators
are called in order until one raises. -/
def collect : List Outcome → Except PyErr (Series × Series)
  | [] => .ok ([], [])
  | .error e :: _ => .error e
  | .ok (p, v) :: rest =>
    match collect rest with
    | .error e => .error e
    | .ok (ps, vs) => .ok (p ++ ps, v ++ vs)

/-- `ParameterTuner.evaluate` (parameter_tuner.py:152-164): the results restricted to the
parameters of the target.  Simplification: `pd.concat([])` of an empty evaluator list,
which raises `ValueError`, is `KeyError` or an empty series here. -/
def evaluate (T : Target) (outs : List Outcome) : Except PyErr (Series × Series) :=
  match collect outs with
  | .error e => .error e
  | .ok (p, v) =>
    match p.select T.names with
    | .error e => .error e
    | .ok p' =>
      match v.select T.names with
      | .error e => .error e
      | .ok v' => .ok (p', v')

/-- The factor of parameter `l`: 1 if it is not in the target (solver.py:136-137). -/
noncomputable def factor (T : Target) (l : String) : Val :=
  match T.row? l with
  | some r => r.rescaling
  | none => some 1

/-- `Solver.rescale_values` (solver.py:129-139), values. -/
noncomputable def rescaleValues (T : Target) (values : Series) : Series :=
  values.map fun e => (e.1, Val.div e.2 (factor T e.1))

/-- `Solver.rescale_values` (solver.py:129-139), variances. Simplification: variances come with
the same labels as the values (`Target.rescale` in `Verif/Target/Model.lean` treats the
general case). -/
noncomputable def rescaleVariances (T : Target) (variances : Series) : Series :=
  variances.map fun e => (e.1, Val.div e.2 (Val.mul (factor T e.1) (factor T e.1)))

/-- The comparison at parameter_tuner.py:248-249 for one row: NaN differences count as 0,
NaN tolerances as infinity. -/
def WithinTolerance (r : Row) (value : Val) : Prop :=
  match r.tolerance with
  | none => True
  | some tol => ((Val.abs (Val.sub r.desired value)).getD 0) < tol

open Classical in
/-- `SubsetTuner.is_tuned` (parameter_tuner.py:222-253). `outs` are the outcomes of the
evaluators. -/
noncomputable def isTuned (I : SolverI S ι) (outs : List Outcome) (v : Volt ι)
    (t : SubsetTuner S ι) : SubsetTuner S ι × Except PyErr Bool :=
  let t := { t with lastVoltage := v }                                          -- line 228
  if t.queued ≠ 0 then                                                          -- lines 230-232
    ({ t with solver := I.setPosition v t.solver }, .ok false)
  else
    let T := I.target t.solver
    match evaluate T outs with                                                  -- line 234
    | .error e => (t, .error e)
    | .ok (p, vars) =>
      let p := rescaleValues T p                                                -- line 236
      let vars := rescaleVariances T vars
      match p.select t.lastValues.index with                                    -- line 237
      | .error e => (t, .error e)
      | .ok lv =>
        match vars.select lv.index with                                         -- line 238
        | .error e => ({ t with lastValues := lv }, .error e)
        | .ok lvar =>
          let t := { t with lastValues := lv, lastVariances := lvar }
          if lv.any (fun e => e.2.isNone) then                                  -- lines 241-243
            ({ t with lastFailed := true }, .ok false)
          else
            let t := { t with lastFailed := false, evaluatable := t.evaluatable ++ [v] }
            match I.update v p vars t.solver with                               -- line 247
            | (s, .error e) => ({ t with solver := s }, .error e)
            | (s, .ok ()) =>
              let t := { t with solver := s }
              if ∀ r ∈ T, WithinTolerance r (p.val r.name) then                  -- lines 248-251
                ({ t with tunedVoltages := t.tunedVoltages ++ [v] }, .ok true)
              else (t, .ok false)

/-- `np.linalg.norm`: NaN if an entry is NaN.  Used in parameter_tuner.py:268-274. -/
noncomputable def norm [Fintype ι] (x : Volt ι) : Val :=
  open Classical in
  if ∀ i, (x i).isSome then some (Real.sqrt (∑ i, ((x i).getD 0) ^ 2)) else none

/-- Python's `int` on a float: truncation towards zero.  Used in parameter_tuner.py:270-276. -/
noncomputable def toInt (x : ℝ) : Int := if 0 ≤ x then ⌊x⌋ else ⌈x⌉

/-- `self._last_voltage + step`, entry by entry.  parameter_tuner.py:272-277. -/
noncomputable def vadd (a b : Volt ι) : Volt ι := fun i => Val.add (a i) (b i)
/-- Difference of voltages, entry by entry.  parameter_tuner.py:267. -/
noncomputable def vsub (a b : Volt ι) : Volt ι := fun i => Val.sub (a i) (b i)
/-- Product with a number.  parameter_tuner.py:272-277. -/
noncomputable def smul (c : ℝ) (a : Volt ι) : Volt ι := fun i => Val.mul (some c) (a i)

/-- The voltages with the solver's suggestion filled in (parameter_tuner.py:265-266).
Simplification: the solver mentions only gates of the experiment, which
`Autotuner.ready_to_tune` checks. -/
def overlay (last : Volt ι) (sug : ι → Option Val) : Volt ι := fun i => (sug i).getD (last i)

open Classical in
/-- The step slicing (parameter_tuner.py:267-277): returns the new number of queued steps
and the step to make.  A maximal step size of exactly 0 raises `OverflowError`
(`int(inf)`). -/
noncomputable def slice [Fintype ι] (maxStep : Val) (maxNumber queued : Int) (step : Volt ι) :
    Except PyErr (Int × Volt ι) :=
  match norm step, maxStep with
  | some n, some m =>
    if m < n then                                                               -- line 269
      if queued = 0 ∧ m = 0 then .error (.other 0)
      else
        let q := if queued = 0 then min (toInt (n / m)) maxNumber else queued   -- lines 270-272
        .ok (q - 1, smul (m / n) step)                                          -- lines 273-274
    else .ok (queued, step)
  | _, _ => .ok (queued, step)

/-- `SubsetTuner.get_next_voltages` (parameter_tuner.py:255-277). -/
noncomputable def nextVoltages [Fintype ι] (I : SolverI S ι) (tuned : List String)
    (t : SubsetTuner S ι) : SubsetTuner S ι × Except PyErr (Volt ι) :=
  if t.lastFailed then                                                          -- lines 261-262
    match t.evaluatable.getLast? with
    | none => (t, .error .indexError)
    | some g => (t, .ok (smul (1 / 2) (vadd g t.lastVoltage)))
  else
    match I.suggest tuned t.solver with                                         -- line 264
    | (s, .error e) => ({ t with solver := s }, .error e)
    | (s, .ok sug) =>
      let t := { t with solver := s }
      match slice t.maxStep t.maxNumber t.queued
          (vsub (overlay t.lastVoltage sug) t.lastVoltage) with
      | .error e => (t, .error e)
      | .ok (q, step) => ({ t with queued := q }, .ok (vadd t.lastVoltage step))

end Qtune.Tuner
