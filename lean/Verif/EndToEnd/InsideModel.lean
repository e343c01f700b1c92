import Verif.EndToEnd.Model
import Verif.EndToEnd.Kalman
import Verif.Autotuner.InterruptModel

/-!
# Model of interruptions inside of an evaluation or a suggestion

Ctrl-C may also come while `is_tuned` or `get_next_voltages` of a tuner runs, between two of its statements or between two statements of the methods that it calls.
The lists below are the states between these statements.  Interruptions inside of `KalmanGradient.update` (filterpy) are not modelled.
-/

namespace Qtune.EndToEnd

open Qtune.Tuner Qtune.Gradient Qtune.Kalman Qtune.Autotuner

/-- The states between the statements of the loop of `update_after_step` (solver.py:246-250): the list of estimators after the first updates.  `parts` are
the states of an estimator between the statements of its method `update`. -/
def feedTrace {E ι : Type} (I : Newton.EstI E ι) (parts : Volt ι → Val → Val → E → List E) (T : Target) (v : Volt ι) :
    List E → Series → List Val → List (List E)
  | e :: es, (l, x) :: values, s :: variances =>
    match T.row? l with
    | none => []                                                                -- line 249
    | some r =>
      if r.desired.isNone then (feedTrace I parts T v es values variances).map (e :: ·)
      else
        (parts v x s e).map (· :: es) ++
        match I.update v x s e with                                             -- line 250
        | (_, .error _) => []
        | (e', .ok ()) => (e' :: es) :: (feedTrace I parts T v es values variances).map (e' :: ·)
  | _, _, _ => []

/-- The states between the statements of `update_after_step` (solver.py:245-252). -/
def updateTrace {E ι : Type} (I : Newton.EstI E ι) (parts : Volt ι → Val → Val → E → List E) (v : Volt ι) (values variances : Series)
    (s : Newton.State E ι) : List (Newton.State E ι) :=
  match values.select s.values.index with
  | .error _ => []
  | .ok vals =>
    ((feedTrace I parts s.target v s.ests vals (variances.map Prod.snd)).map fun es => { s with ests := es }) ++
    match Newton.feed I s.target v s.ests vals (variances.map Prod.snd) with
    | (_, .error _) => []
    | (es, .ok ()) => [{ s with ests := es, pos := v }, { s with ests := es, pos := v, values := vals }]  -- lines 251-252

/-- The states between the statements of `SubsetTuner.is_tuned` (parameter_tuner.py:222-253), with a Newton solver.  The state after the last
statement is not listed: it is the second one of `iterateTrace`. -/
noncomputable def isTunedTrace {X : Type} {n : Nat} (I : Newton.EstI X (Fin n)) (parts : Volt (Fin n) → Val → Val → X → List X) (outs : List Outcome)
    (v : Volt (Fin n)) (t : OneTuner X n) : List (OneTuner X n) :=
  t :: { t with lastVoltage := v } ::                                           -- line 228
    if t.queued ≠ 0 then [{ t with lastVoltage := v, solver := { t.solver with pos := v } }]  -- lines 230-232
    else
      match evaluate t.solver.target outs with                                  -- line 234
      | .error _ => []
      | .ok (p, vars) =>
        match (rescaleValues t.solver.target p).select t.lastValues.index with  -- lines 236-237
        | .error _ => []
        | .ok lv =>
          { t with lastVoltage := v, lastValues := lv } ::
          match (rescaleVariances t.solver.target vars).select lv.index with    -- line 238
          | .error _ => []
          | .ok lvar =>
            { t with lastVoltage := v, lastValues := lv, lastVariances := lvar } ::
            if lv.any (fun e => e.2.isNone) then                                -- lines 241-243
              [{ t with lastVoltage := v, lastValues := lv, lastVariances := lvar, lastFailed := true }]
            else
              { t with lastVoltage := v, lastValues := lv, lastVariances := lvar, lastFailed := false } ::          -- line 244
              { t with lastVoltage := v, lastValues := lv, lastVariances := lvar, lastFailed := false, evaluatable := t.evaluatable ++ [v] } ::  -- line 245
              (updateTrace I parts v (rescaleValues t.solver.target p) (rescaleVariances t.solver.target vars) t.solver).map fun s =>            -- line 247
                { t with lastVoltage := v, lastValues := lv, lastVariances := lvar, lastFailed := false, evaluatable := t.evaluatable ++ [v], solver := s }

open Classical in
/-- The states between the statements of `SubsetTuner.get_next_voltages` (parameter_tuner.py:255-277), with a Newton solver and without tuned parameters.  The state
after the last assignment is not listed: it is the second one of `iterateTrace`.  Simplification: `suggest_next_position` is one statement; the estimators of
the theorems do not change in it. -/
noncomputable def nextTrace {X : Type} {n : Nat} (I : Newton.EstI X (Fin n)) (lstsq : Newton.Lstsq (Fin n)) (t : OneTuner X n) : List (OneTuner X n) :=
  t :: if t.lastFailed then []                                                  -- lines 261-262
    else match Newton.suggest I lstsq [] t.solver with                          -- line 264
      | (_, .error _) => []
      | (s, .ok sug) =>
        { t with solver := s } ::
        match norm (vsub (overlay t.lastVoltage sug) t.lastVoltage), t.maxStep with
        | some a, some M =>
          if M < a ∧ t.queued = 0 ∧ M ≠ 0 then [{ t with solver := s, queued := min (toInt (a / M)) t.maxNumber }] else []  -- lines 269-272
        | _, _ => []

/-- The states of a Kalman estimator between the statements of `KalmanGradientEstimator.update` (gradient.py:343-360) with `is_new_position=True` that come
before the assignment of the value: the filter is updated, value and position are the old ones. -/
noncomputable def filterPart {n : Nat} (v : Volt (Fin n)) (x y : Val) (e : Est n) : List (Est n) :=
  match e.value with
  | none => []
  | some _ => match e.update v (x.getD 0) (y.getD 0) true with
    | (_, .error _) => []
    | (e', .ok ()) => [{ e' with value := e.value, pos := e.pos }]              -- lines 353-356

/-- The state between the two assignments (gradient.py:347-348, 359-360): the value is the new one, the position is the old one. -/
noncomputable def valuePart {n : Nat} (v : Volt (Fin n)) (x y : Val) (e : Est n) : List (Est n) :=
  match e.update v (x.getD 0) (y.getD 0) true with
  | (_, .error _) => []
  | (e', .ok ()) => [{ e' with pos := e.pos }]

/-- Calls of `iterate`: to the end, interrupted between two statements of `iterate`, and interrupted inside of the evaluation or the suggestion
(autotuner.py:243-291). -/
inductive StoppedCall
  | whole (save : Except PyErr Unit)
  | stopped (k : Nat)
  | inside (k : Nat)
  | insideNext (k : Nat)

/-- What is left by a call (autotuner.py:243-291).  A call that does not come to `is_tuned` (line 274) or `get_next_voltages` (line 286) is not interrupted inside
of it, nor is one in which it has fewer statements: then the call runs to its end. -/
noncomputable def leave {X : Type} {n : Nat} (I : Newton.EstI X (Fin n)) (parts : Volt (Fin n) → Val → Val → X → List X) (lstsq : Newton.Lstsq (Fin n))
    (outs : Volt (Fin n) → List Outcome) (s : Autotuner.State (OneTuner X n) (Volt (Fin n)) (Volt (Fin n))) :
    StoppedCall → Autotuner.State (OneTuner X n) (Volt (Fin n)) (Volt (Fin n))
  | .whole save => (iterate (hierarchy I lstsq outs) save s).1
  | .stopped k => (stopAt (iterateTrace (hierarchy I lstsq outs) s) k s).1
  | .inside k =>
    if isComplete (hierarchy I lstsq outs) s = false ∧ s.pending = none ∧ s.status = false then
      match (isTunedTrace I parts (outs s.expt) s.expt s.tuners)[k]? with
      | some w => { s with tuners := w }
      | none => (iterate (hierarchy I lstsq outs) (.ok ()) s).1
    else (iterate (hierarchy I lstsq outs) (.ok ()) s).1
  | .insideNext k =>
    if isComplete (hierarchy I lstsq outs) s = false ∧ s.pending = none ∧ s.status = true then
      match (nextTrace I lstsq s.tuners)[k]? with
      | some w => { s with tuners := w }
      | none => (iterate (hierarchy I lstsq outs) (.ok ()) s).1
    else (iterate (hierarchy I lstsq outs) (.ok ()) s).1

/-- A sequence of calls (autotuner.py:243-291). -/
noncomputable def leaves {X : Type} {n : Nat} (I : Newton.EstI X (Fin n)) (parts : Volt (Fin n) → Val → Val → X → List X) (lstsq : Newton.Lstsq (Fin n))
    (outs : Volt (Fin n) → List Outcome) (s : Autotuner.State (OneTuner X n) (Volt (Fin n)) (Volt (Fin n))) (calls : List StoppedCall) :
    Autotuner.State (OneTuner X n) (Volt (Fin n)) (Volt (Fin n)) := calls.foldl (leave I parts lstsq outs) s

end Qtune.EndToEnd
