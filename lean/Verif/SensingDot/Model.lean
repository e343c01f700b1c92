import Verif.Tuner.Model

/-!
# Model of `SensingDotTuner` (parameter_tuner.py:288-407)

The tuner has two groups of evaluators.  Calls of the evaluators and of the solver are
logged, because the properties are about which of them happen.
-/

namespace Qtune.SensingDot

open Qtune.Tuner

/-- State of a `SensingDotTuner` (parameter_tuner.py:54-95, 310-331).  The evaluators, the
gates and the target (held by the solver) are constant parameters of the model. -/
structure SDTuner (S ι : Type) where
  solver : S
  tunedVoltages : List (Volt ι)
  lastVoltage : Volt ι
  lastValues : Series
  lastVariances : Series
  lastFailed : Bool
  evaluatable : List (Volt ι)
  cheapOnly : Bool

/-- What a call of `is_tuned` does to its surroundings.  Calls in parameter_tuner.py:345-372. -/
inductive Act (ι : Type)
  /-- the cheap evaluators were called -/
  | cheap
  /-- the expensive evaluators were called -/
  | expensive
  /-- `solver.update_after_step(position, values, variances)` was called -/
  | update (position : Volt ι) (values variances : Series)

variable {S ι : Type}

/-- `series.sort_index()`.  Used in parameter_tuner.py:397. -/
def sortIndex (s : Series) : Series := s.mergeSort fun a b => decide (a.1 ≤ b.1)

/-- `SensingDotTuner.evaluate` (parameter_tuner.py:380-397) for one group of evaluators;
`pd.concat` of an empty list raises `ValueError`. -/
def evaluate (outs : List Outcome) : Except PyErr (Series × Series) :=
  match collect outs with
  | .error e => .error e
  | .ok (p, v) => if outs = [] then .error .valueError else .ok (sortIndex p, sortIndex v)

/-- `series[other.index] = other[other.index]` (parameter_tuner.py:349-350, 364-365):
`KeyError` if a label is missing in `series` (`ValueError` in some versions of pandas). -/
def assign (s other : Series) : Except PyErr Series :=
  if other.all (fun e => s.index.contains e.1) then
    .ok (s.map fun e => (e.1, if other.index.contains e.1 then other.val e.1 else e.2))
  else .error .keyError

/-- `variances[current_parameter.index]` assigned to the last variances
(parameter_tuner.py:350, 365). -/
def assignVariances (s values variances : Series) : Except PyErr Series :=
  match variances.select values.index with
  | .error e => .error e
  | .ok v => assign s v

open Classical in
/-- `values.le(self.target[column]).any()` (parameter_tuner.py:357, 359): the comparison
is made label by label, a missing or NaN entry compares as false. -/
noncomputable def anyLe (T : Target) (column : Row → Val) (values : Series) : Bool :=
  values.any fun e => decide (∃ r, T.row? e.1 = some r ∧ Val.LE e.2 (column r))

/-- Lines 359-365: the expensive evaluation, or nothing. `p`, `vars` are the cheap results.
Returns the results to be forwarded to the solver.  parameter_tuner.py:359-365. -/
noncomputable def maybeExpensive (T : Target) (exp : List Outcome) (p vars : Series)
    (t : SDTuner S ι) : SDTuner S ι × List (Act ι) × Except PyErr (Series × Series) :=
  if anyLe T Row.costThreshold p then                                           -- line 359
    let t := { t with cheapOnly := false }                                      -- line 361
    match evaluate exp with                                                     -- line 362
    | .error e => (t, [.expensive], .error e)
    | .ok (q, qv) =>
      let q' := rescaleValues T q                                               -- line 363
      let qv' := rescaleVariances T qv
      match assign t.lastValues q' with                                         -- line 364
      | .error e => (t, [.expensive], .error e)
      | .ok lv =>
        match assignVariances t.lastVariances q' qv' with                       -- line 365
        | .error e => ({ t with lastValues := lv }, [.expensive], .error e)
        | .ok lvar => ({ t with lastValues := lv, lastVariances := lvar }, [.expensive],
            .ok (q', qv'))
  else (t, [], .ok (p, vars))

/-- `SensingDotTuner.is_tuned` (parameter_tuner.py:345-372).  `cheap` and `exp` are the
outcomes of the two groups of evaluators, should they be called. -/
noncomputable def isTuned (I : SolverI S ι) (cheap exp : List Outcome) (v : Volt ι)
    (t : SDTuner S ι) : SDTuner S ι × List (Act ι) × Except PyErr Bool :=
  let T := I.target t.solver
  match evaluate cheap with                                                     -- line 346
  | .error e => (t, [.cheap], .error e)
  | .ok (p, vars) =>
    let p := rescaleValues T p                                                  -- line 347
    let vars := rescaleVariances T vars
    let t := { t with lastVoltage := v }                                        -- line 348
    match assign t.lastValues p with                                            -- line 349
    | .error e => (t, [.cheap], .error e)
    | .ok lv =>
      let t := { t with lastValues := lv }
      match assignVariances t.lastVariances p vars with                         -- line 350
      | .error e => (t, [.cheap], .error e)
      | .ok lvar =>
        let t := { t with lastVariances := lvar }
        if p.any (fun e => e.2.isNone) then                                     -- lines 352-354
          ({ t with lastFailed := true }, [.cheap], .ok false)
        else
          let t := { t with lastFailed := false }                               -- line 355
          if anyLe T Row.minimum p then                                         -- line 357
            match maybeExpensive T exp p vars { t with cheapOnly := true } with
            | (t, acts, .error e) => (t, .cheap :: acts, .error e)
            | (t, acts, .ok (q, qv)) =>
              match I.update v q qv t.solver with                               -- line 367
              | (s, .error e) =>
                ({ t with solver := s }, .cheap :: acts ++ [.update v q qv], .error e)
              | (s, .ok ()) =>
                ({ t with solver := s }, .cheap :: acts ++ [.update v q qv], .ok false)
          else                                                                  -- lines 370-372
            ({ t with cheapOnly := true, tunedVoltages := t.tunedVoltages ++ [v] },
              [.cheap], .ok true)

/-- `SensingDotTuner.get_next_voltages` (parameter_tuner.py:374-378).  The solver's
suggestion may mention only some gates (`none`: not mentioned). -/
noncomputable def nextVoltages (I : SolverI S ι) (tuned : List String) (t : SDTuner S ι) :
    SDTuner S ι × Except PyErr (ι → Option Val) :=
  if t.lastFailed then                                                          -- lines 375-376
    match t.tunedVoltages.getLast? with
    | none => (t, .error .indexError)
    | some g => (t, .ok fun i => some (smul (1 / 2) (vadd g t.lastVoltage) i))
  else
    match I.suggest tuned t.solver with                                         -- line 377
    | (s, r) => ({ t with solver := s }, r)

end Qtune.SensingDot
