import Verif.EndToEnd.SensedModel

/-!
# `SubsetTuner.is_tuned` with a solver that changes the values in place (parameter_tuner.py:222-253, solver.py:141-151, 545)

`update_after_step` gets the Series of the measured values itself, not a copy.  `ForwardingSolver.update_after_step` multiplies it with the factors
of the target, and the tuner then compares this Series with the set points.
-/

namespace Qtune.Tuner

variable {S ι : Type}

open Classical in
/-- `SubsetTuner.is_tuned` (parameter_tuner.py:222-253).  `left values variances s` is what the solver `s` leaves in the Series of the values when
`update_after_step` returns.  The recorded values are copies made before (lines 237-238). -/
noncomputable def isTunedInPlace (I : SolverI S ι) (left : Series → Series → S → Series) (outs : List Outcome) (v : Volt ι)
    (t : SubsetTuner S ι) : SubsetTuner S ι × Except PyErr Bool :=
  let t := { t with lastVoltage := v }                                          -- line 228
  if t.queued ≠ 0 then                                                          -- lines 230-232
    ({ t with solver := I.setPosition v t.solver }, .ok false)
  else
    let T := I.target t.solver
    match evaluate T outs with                                                  -- line 234
    | .error e => (t, .error e)
    | .ok (p, vars) =>
      let p := rescaleValues T p                                                -- line 236
      let vars := rescaleVariances T vars
      match p.select t.lastValues.index with                                    -- line 237
      | .error e => (t, .error e)
      | .ok lv =>
        match vars.select lv.index with                                         -- line 238
        | .error e => ({ t with lastValues := lv }, .error e)
        | .ok lvar =>
          let t := { t with lastValues := lv, lastVariances := lvar }
          if lv.any (fun e => e.2.isNone) then                                  -- lines 241-243
            ({ t with lastFailed := true }, .ok false)
          else
            let t := { t with lastFailed := false, evaluatable := t.evaluatable ++ [v] }
            match I.update v p vars t.solver with                               -- line 247
            | (s, .error e) => ({ t with solver := s }, .error e)
            | (s, .ok ()) =>
              let p := left p vars t.solver
              let t := { t with solver := s }
              if ∀ r ∈ T, WithinTolerance r (p.val r.name) then                  -- lines 248-251
                ({ t with tunedVoltages := t.tunedVoltages ++ [v] }, .ok true)
              else (t, .ok false)

/-- What `ForwardingSolver.update_after_step` leaves in the Series of the values: they are descaled in place (solver.py:545, 141-151). -/
noncomputable def leftByForwarding (values variances : Series) (f : TargetOps.Forwarding) : Series :=
  (TargetOps.descale f.target values variances).1

/-- `NewtonSolver.update_after_step` (solver.py:245-252) does not change the Series it gets: it selects entries, which makes a copy. -/
def leftByNewton (values _variances : Series) (_ : S) : Series := values

end Qtune.Tuner
