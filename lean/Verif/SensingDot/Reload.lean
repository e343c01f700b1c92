import Verif.SensingDot.Props
import Verif.Tuner.Reload

/-! # Saving and reloading a `SensingDotTuner` (C25) -/

namespace Qtune.SensingDot

open Qtune.Tuner

variable {S ι : Type}

/-- `SensingDotTuner(**tuner.to_hdf5())` (parameter_tuner.py:399-407 and 293-331, 54-95):
tuned voltages, failure flag and evaluatable voltages are not stored and get their default
values.  `cheapParameters` are the parameters of the cheap evaluators.  Simplification: as
for `Tuner.Args`. -/
def reload (I : SolverI S ι) (cheapParameters : List String) (t : SDTuner S ι) :
    Except PyErr (SDTuner S ι) :=
  let T := I.target t.solver
  if !(rowsNotEmpty T).all t.lastValues.index.contains then .error .assertionError  -- line 74
  else if !T.names.all t.lastVariances.index.contains then .error .assertionError   -- line 85
  else if ¬ cheapParameters.Nodup then .error .valueError                       -- lines 93-94
  else if !(rowsComplete T).all cheapParameters.contains then .error .assertionError
  else .ok { t with tunedVoltages := [], lastFailed := false, evaluatable := [] }

theorem maybeExpensive_forget (T : Target) (exp : List Outcome) (p vars : Series)
    (t : SDTuner S ι) (a b : List (Volt ι)) :
    maybeExpensive T exp p vars { t with tunedVoltages := a, evaluatable := b } =
      match maybeExpensive T exp p vars t with
      | (t', r) => ({ t' with tunedVoltages := a, evaluatable := b }, r) := by
  unfold maybeExpensive
  simp only
  split
  · split
    · rfl
    · split
      · rfl
      · split <;> rfl
  · rfl

/-- **C25 for `SensingDotTuner` (provable part).** As long as the last evaluation did not fail,
a reloaded tuner suggests the same voltages and `is_tuned` gives the same answer with the
same measurements and solver updates.  Missing: the recovery after a failed evaluation, see
`sensing_dot_reload_refuted`. -/
theorem sensing_dot_reload_partial (I : SolverI S ι) (params : List String)
    (t t' : SDTuner S ι) (h : reload I params t = .ok t') :
    (t.lastFailed = false → ∀ tuned, (nextVoltages I tuned t').2 = (nextVoltages I tuned t).2) ∧
    (∀ cheap exp v, (isTuned I cheap exp v t').2 = (isTuned I cheap exp v t).2) := by
  have ht' : t' = { t with tunedVoltages := [], lastFailed := false, evaluatable := [] } := by
    unfold reload at h
    simp only at h
    repeat' split at h
    all_goals first | (cases h; rfl) | cases h
  subst ht'
  constructor
  · intro hf tuned
    rw [(sensing_dot_next I tuned _).2.2 rfl, (sensing_dot_next I tuned t).2.2 hf]
  · intro cheap exp v
    unfold isTuned
    simp only
    split
    · rfl
    · split
      · rfl
      · split
        · rfl
        · split
          · rfl
          · split
            · rename_i p vars _ _ lv _ _ lvar _ _ _
              rw [maybeExpensive_forget _ _ _ _ { t with
                lastVoltage := v, lastValues := lv, lastVariances := lvar,
                lastFailed := false, cheapOnly := true }]
              rcases maybeExpensive (I.target t.solver) exp (rescaleValues (I.target t.solver) p)
                (rescaleVariances (I.target t.solver) vars) { t with
                lastVoltage := v, lastValues := lv, lastVariances := lvar,
                lastFailed := false, cheapOnly := true } with ⟨t', acts, res⟩
              cases res with
              | error e => rfl
              | ok qq =>
                simp only
                rcases I.update v qq.1 qq.2 t'.solver with ⟨s, res⟩
                cases res <;> rfl
            · rfl

/-- **C25 is false for `SensingDotTuner`**: a tuner that was tuned at voltage 0 and whose
evaluation at voltage 4 failed goes back to voltage 2.  The reloaded tuner has forgotten both
and returns the solver's suggestion instead. -/
theorem sensing_dot_reload_refuted :
    ∃ (t t' : SDTuner Unit (Fin 1)),
      t = (isTuned sdSolver (one "c" none) [] (fun _ => some 4)
            (isTuned sdSolver (one "c" (some 3)) [] (fun _ => some 0) sdTuner).1).1 ∧
      reload sdSolver ["c"] t = .ok t' ∧
      (nextVoltages sdSolver [] t).2 = .ok (fun _ => some (some 2)) ∧
      (nextVoltages sdSolver [] t').2 = .ok (fun _ => some (some 0)) := by
  have hsol : sdSolver.target sdTuner.solver = sdTarget := rfl
  have hc1 := delivers_one "c" (some 3) (Or.inl rfl)
  obtain ⟨lv, lvar, hi, hvi, ⟨hn, -⟩ | ⟨-, -, h1⟩ | ⟨-, hm, -⟩⟩ :=
    isTuned_cases sdSolver (one "c" (some 3)) [] (fun _ => some 0) sdTuner _ _ hc1
  · exact absurd (sd_noNaN 3) hn
  · rw [h1]
    have hc2 : Delivers (one "c" none)
        { sdTuner with lastVoltage := (fun _ => some 0 : Volt (Fin 1)), lastValues := lv,
                       lastVariances := lvar, lastFailed := false, cheapOnly := true,
                       tunedVoltages := sdTuner.tunedVoltages ++ [fun _ => some 0] }
        [("c", none)] [("c", some 0)] := by
      refine ⟨by simp [one], by simp [one, collect], ?_, by simp [Series.index]⟩
      simp only [hi, hvi]
      simp [Series.index, sdTuner]
    obtain ⟨lv', lvar', hi', hvi', ⟨-, h2⟩ | ⟨hn, -, -⟩ | ⟨hn, -, -⟩⟩ :=
      isTuned_cases sdSolver (one "c" none) [] (fun _ => some 4) _ _ _ hc2
    · refine ⟨_, { solver := (), tunedVoltages := [], lastVoltage := fun _ => some 4,
                   lastValues := lv', lastVariances := lvar', lastFailed := false,
                   evaluatable := [], cheapOnly := true }, rfl, ?_, ?_, ?_⟩
      · rw [h2]
        unfold reload
        simp only [hi', hvi', hi, hvi]
        simp [sdTuner, sdSolver, sdTarget, rowsNotEmpty, rowsComplete, Target.columns,
          Target.names, Series.index]
      · rw [h2, (sensing_dot_next sdSolver [] _).1 rfl [] (fun _ => some 0) rfl]
        norm_num
      · rw [(sensing_dot_next sdSolver [] _).2.2 rfl]
        rfl
    · exact absurd ⟨none, by simp, by simp⟩ (hn "c")
    · exact absurd ⟨none, by simp, by simp⟩ (hn "c")
  · rw [hsol, sd_min] at hm
    norm_num at hm

end Qtune.SensingDot
