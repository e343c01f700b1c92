import Verif.SensingDot.Lemmas
import Mathlib.Tactic.NormNum

/-! # Properties of `SensingDotTuner` (C22–C24, C77) -/

namespace Qtune.SensingDot

open Qtune.Tuner

variable {S ι : Type}

/-- The measured parameters, in units of the target: entry `(l, x)` of the evaluators' result
becomes `(l, x / factor)`. -/
def Measured (T : Target) (p : Series) (l : String) (y : Val) : Prop :=
  ∃ x, (l, x) ∈ p ∧ y = Val.div x (factor T l)

/-- Some measured parameter is at or below its entry in a column of the target. -/
def SomeAtOrBelow (T : Target) (column : Row → Val) (p : Series) : Prop :=
  ∃ l y r m, Measured T p l (some y) ∧ T.row? l = some r ∧ column r = some m ∧ y ≤ m

/-- All measured parameters are numbers. -/
def NoneNaN (T : Target) (p : Series) : Prop := ∀ l, ¬ Measured T p l none

/-- A group of evaluators was called and returned values and variances for parameters the
tuner knows. -/
structure Delivers (outs : List Outcome) (t : SDTuner S ι) (p v : Series) : Prop where
  some_evaluator : outs ≠ []
  result : collect outs = .ok (p, v)
  known : ∀ l ∈ p.index, l ∈ t.lastValues.index ∧ l ∈ t.lastVariances.index
  has_variance : ∀ l ∈ p.index, l ∈ v.index

theorem evaluate_eq {outs : List Outcome} {t : SDTuner S ι} {p v : Series}
    (h : Delivers outs t p v) : evaluate outs = .ok (sortIndex p, sortIndex v) := by
  unfold evaluate
  rw [h.result]
  simp [h.some_evaluator]

theorem anyLe_iff (T : Target) (c : Row → Val) (p : Series) :
    anyLe T c (rescaleValues T (sortIndex p)) = true ↔ SomeAtOrBelow T c p := by
  classical
  unfold anyLe SomeAtOrBelow
  rw [List.any_eq_true]
  constructor
  · rintro ⟨⟨l, y⟩, he, h⟩
    obtain ⟨r, hr, x, m, hx, hm, hle⟩ := decide_eq_true_iff.1 h
    obtain ⟨x₀, h0, h1⟩ := mem_rescale.1 he
    simp only at hx h0 h1
    exact ⟨l, x, r, m, ⟨x₀, h0, by rw [← h1, hx]⟩, hr, hm, hle⟩
  · rintro ⟨l, y, r, m, ⟨x, hx, hy⟩, hr, hm, hle⟩
    refine ⟨(l, some y), mem_rescale.2 ⟨x, hx, hy⟩, ?_⟩
    exact decide_eq_true_iff.2 ⟨r, hr, y, m, rfl, hm, hle⟩

theorem anyNaN_iff (T : Target) (p : Series) :
    (rescaleValues T (sortIndex p)).any (fun e => e.2.isNone) = true ↔ ¬ NoneNaN T p := by
  unfold NoneNaN
  rw [List.any_eq_true]
  push Not
  constructor
  · rintro ⟨⟨l, y⟩, he, h⟩
    obtain ⟨x, h0, h1⟩ := mem_rescale.1 he
    refine ⟨l, x, h0, ?_⟩
    simp only [Option.isNone_iff_eq_none] at h
    rw [← h1, h]
  · rintro ⟨l, x, hx, hy⟩
    exact ⟨(l, none), mem_rescale.2 ⟨x, hx, hy⟩, rfl⟩

/-- The three ways a call of `is_tuned` can go when the cheap evaluators deliver. -/
theorem isTuned_cases (I : SolverI S ι) (cheap exp : List Outcome) (v : Volt ι)
    (t : SDTuner S ι) (p vars : Series) (hc : Delivers cheap t p vars) :
    ∃ lv lvar, lv.index = t.lastValues.index ∧ lvar.index = t.lastVariances.index ∧ (
      (¬ NoneNaN (I.target t.solver) p ∧ isTuned I cheap exp v t =
        ({ t with lastVoltage := v, lastValues := lv, lastVariances := lvar,
                  lastFailed := true }, [.cheap], .ok false)) ∨
      (NoneNaN (I.target t.solver) p ∧ ¬ SomeAtOrBelow (I.target t.solver) Row.minimum p ∧
        isTuned I cheap exp v t =
        ({ t with lastVoltage := v, lastValues := lv, lastVariances := lvar,
                  lastFailed := false, cheapOnly := true,
                  tunedVoltages := t.tunedVoltages ++ [v] }, [.cheap], .ok true)) ∨
      (NoneNaN (I.target t.solver) p ∧ SomeAtOrBelow (I.target t.solver) Row.minimum p ∧
        isTuned I cheap exp v t =
          match maybeExpensive (I.target t.solver) exp
              (rescaleValues (I.target t.solver) (sortIndex p))
              (rescaleVariances (I.target t.solver) (sortIndex vars))
              { t with lastVoltage := v, lastValues := lv, lastVariances := lvar,
                       lastFailed := false, cheapOnly := true } with
            | (t, acts, .error e) => (t, .cheap :: acts, .error e)
            | (t, acts, .ok (q, qv)) =>
              match I.update v q qv t.solver with
              | (s, .error e) =>
                ({ t with solver := s }, .cheap :: acts ++ [.update v q qv], .error e)
              | (s, .ok ()) =>
                ({ t with solver := s }, .cheap :: acts ++ [.update v q qv], .ok false))) := by
  obtain ⟨lv, hlv, hli⟩ := assign_ok (s := t.lastValues)
    (p := rescaleValues (I.target t.solver) (sortIndex p))
    (fun l hl => (hc.known l (mem_index_rescale.1 hl)).1)
  obtain ⟨lvar, hlvar, hlvi⟩ := assignVariances_ok (s := t.lastVariances)
    (p := rescaleValues (I.target t.solver) (sortIndex p))
    (v := rescaleVariances (I.target t.solver) (sortIndex vars))
    (fun l hl => (hc.known l (mem_index_rescale.1 hl)).2)
    (fun l hl => mem_index_rescaleVar.2 (hc.has_variance l (mem_index_rescale.1 hl)))
  refine ⟨lv, lvar, hli, hlvi, ?_⟩
  unfold isTuned
  rw [evaluate_eq hc]
  simp only [hlv, hlvar]
  by_cases hn : NoneNaN (I.target t.solver) p
  · rw [if_neg (by rw [anyNaN_iff]; simpa using hn)]
    by_cases hm : SomeAtOrBelow (I.target t.solver) Row.minimum p
    · rw [if_pos ((anyLe_iff _ _ _).2 hm)]
      exact Or.inr (Or.inr ⟨hn, hm, rfl⟩)
    · rw [if_neg (by rw [anyLe_iff]; exact hm)]
      exact Or.inr (Or.inl ⟨hn, hm, rfl⟩)
  · rw [if_pos ((anyNaN_iff _ _).2 hn)]
    exact Or.inl ⟨hn, rfl⟩

theorem maybeExpensive_fields (T : Target) (exp : List Outcome) (p vars : Series)
    (t : SDTuner S ι) :
    (maybeExpensive T exp p vars t).1.lastFailed = t.lastFailed ∧
    (maybeExpensive T exp p vars t).1.tunedVoltages = t.tunedVoltages ∧
    (maybeExpensive T exp p vars t).1.lastVoltage = t.lastVoltage ∧
    (maybeExpensive T exp p vars t).1.solver = t.solver := by
  unfold maybeExpensive
  simp only
  repeat' split
  all_goals exact ⟨rfl, rfl, rfl, rfl⟩

theorem maybeExpensive_acts {T : Target} {exp : List Outcome} {p vars : Series}
    {t : SDTuner S ι} (h : anyLe T Row.costThreshold p = true) :
    (maybeExpensive T exp p vars t).2.1 = [.expensive] := by
  unfold maybeExpensive
  rw [if_pos h]
  simp only
  repeat' split
  all_goals rfl

/-! ## C22 -/

/-- **C22.** If the cheap evaluators deliver, `is_tuned` returns `True` exactly if no
measured parameter is NaN and none is at or below its minimum.  Then the voltages are
recorded as tuned; in every other case the list of tuned voltages is unchanged. -/
theorem sensing_dot_decision (I : SolverI S ι) (cheap exp : List Outcome) (v : Volt ι)
    (t : SDTuner S ι) (p vars : Series) (hc : Delivers cheap t p vars) :
    ((isTuned I cheap exp v t).2.2 = .ok true ↔
      NoneNaN (I.target t.solver) p ∧ ¬ SomeAtOrBelow (I.target t.solver) Row.minimum p) ∧
    ((isTuned I cheap exp v t).2.2 = .ok true →
      (isTuned I cheap exp v t).1.tunedVoltages = t.tunedVoltages ++ [v]) ∧
    ((isTuned I cheap exp v t).2.2 ≠ .ok true →
      (isTuned I cheap exp v t).1.tunedVoltages = t.tunedVoltages) := by
  obtain ⟨lv, lvar, hli, hlvi, ⟨hn, h⟩ | ⟨hn, hm, h⟩ | ⟨hn, hm, h⟩⟩ :=
    isTuned_cases I cheap exp v t p vars hc
  · rw [h]; simp [hn]
  · rw [h]; simp [hn, hm]
  · rw [h]
    have hf := maybeExpensive_fields (I.target t.solver) exp
      (rescaleValues (I.target t.solver) (sortIndex p))
      (rescaleVariances (I.target t.solver) (sortIndex vars))
      { t with lastVoltage := v, lastValues := lv, lastVariances := lvar,
               lastFailed := false, cheapOnly := true }
    rcases hme : maybeExpensive (I.target t.solver) exp
      (rescaleValues (I.target t.solver) (sortIndex p))
      (rescaleVariances (I.target t.solver) (sortIndex vars))
      { t with lastVoltage := v, lastValues := lv, lastVariances := lvar,
               lastFailed := false, cheapOnly := true } with ⟨t', acts, res⟩
    rw [hme] at hf
    simp only at hf
    cases res with
    | error e => simp [hm, hf.2.1]
    | ok qq =>
      obtain ⟨q, qv⟩ := qq
      rcases hu : I.update v q qv t'.solver with ⟨s, res⟩
      cases res <;> simp [hu, hm, hf.2.1]

/-! ## C23 -/

/-- **C23.** If the cheap evaluators deliver, the expensive evaluators are called exactly if
no parameter is NaN, some parameter is at or below its minimum and some parameter is at or
below its cost threshold.  The cheap evaluators are always called first, once. If the
voltages are not tuned and the evaluation did not fail or raise, the solver is updated
exactly once: with the expensive results (rescaled) if the expensive evaluators ran, with
the cheap results otherwise. -/
theorem expensive_on_demand (I : SolverI S ι) (cheap exp : List Outcome) (v : Volt ι)
    (t : SDTuner S ι) (p vars : Series) (hc : Delivers cheap t p vars) :
    ((.expensive : Act ι) ∈ (isTuned I cheap exp v t).2.1 ↔
      NoneNaN (I.target t.solver) p ∧ SomeAtOrBelow (I.target t.solver) Row.minimum p ∧
        SomeAtOrBelow (I.target t.solver) Row.costThreshold p) ∧
    (NoneNaN (I.target t.solver) p → SomeAtOrBelow (I.target t.solver) Row.minimum p →
      SomeAtOrBelow (I.target t.solver) Row.costThreshold p →
      ∀ q qv, Delivers exp t q qv →
        (isTuned I cheap exp v t).2.1 = [.cheap, .expensive,
          .update v (rescaleValues (I.target t.solver) (sortIndex q))
            (rescaleVariances (I.target t.solver) (sortIndex qv))]) ∧
    (NoneNaN (I.target t.solver) p → SomeAtOrBelow (I.target t.solver) Row.minimum p →
      ¬ SomeAtOrBelow (I.target t.solver) Row.costThreshold p →
        (isTuned I cheap exp v t).2.1 = [.cheap,
          .update v (rescaleValues (I.target t.solver) (sortIndex p))
            (rescaleVariances (I.target t.solver) (sortIndex vars))]) ∧
    (¬ (NoneNaN (I.target t.solver) p ∧ SomeAtOrBelow (I.target t.solver) Row.minimum p) →
      (isTuned I cheap exp v t).2.1 = [.cheap]) := by
  obtain ⟨lv, lvar, hli, hlvi, ⟨hn, h⟩ | ⟨hn, hm, h⟩ | ⟨hn, hm, h⟩⟩ :=
    isTuned_cases I cheap exp v t p vars hc
  · rw [h]; simp [hn]
  · rw [h]; simp [hn, hm]
  · rw [h]
    by_cases hct : SomeAtOrBelow (I.target t.solver) Row.costThreshold p
    · have hany := (anyLe_iff (I.target t.solver) Row.costThreshold p).2 hct
      refine ⟨?_, ?_, fun _ _ h => absurd hct h, fun h => absurd ⟨hn, hm⟩ h⟩
      · simp only [hn, hm, hct, and_self, iff_true]
        rcases hme : maybeExpensive (I.target t.solver) exp
          (rescaleValues (I.target t.solver) (sortIndex p))
          (rescaleVariances (I.target t.solver) (sortIndex vars))
          { t with lastVoltage := v, lastValues := lv, lastVariances := lvar,
                   lastFailed := false, cheapOnly := true } with ⟨t', acts, res⟩
        have hacts := maybeExpensive_acts (exp := exp)
          (t := { t with lastVoltage := v, lastValues := lv, lastVariances := lvar,
                         lastFailed := false, cheapOnly := true })
          (vars := rescaleVariances (I.target t.solver) (sortIndex vars)) hany
        rw [hme] at hacts
        simp only at hacts
        subst hacts
        cases res with
        | error e => simp
        | ok qq =>
          obtain ⟨q, qv⟩ := qq
          rcases hu : I.update v q qv t'.solver with ⟨s, res⟩
          cases res <;> simp [hu]
      · intro _ _ _ q qv hq
        obtain ⟨lv', hlv', -⟩ := assign_ok (s := lv)
          (p := rescaleValues (I.target t.solver) (sortIndex q))
          (fun l hl => hli ▸ (hq.known l (mem_index_rescale.1 hl)).1)
        obtain ⟨lvar', hlvar', -⟩ := assignVariances_ok (s := lvar)
          (p := rescaleValues (I.target t.solver) (sortIndex q))
          (v := rescaleVariances (I.target t.solver) (sortIndex qv))
          (fun l hl => hlvi ▸ (hq.known l (mem_index_rescale.1 hl)).2)
          (fun l hl => mem_index_rescaleVar.2 (hq.has_variance l (mem_index_rescale.1 hl)))
        unfold maybeExpensive
        rw [if_pos hany]
        simp only [evaluate_eq hq, hlv', hlvar']
        split <;> rfl
    · have hany : ¬ _ := fun hh => hct ((anyLe_iff (I.target t.solver) Row.costThreshold p).1 hh)
      unfold maybeExpensive
      rw [if_neg hany]
      simp only [hn, hm, hct]
      rcases hu : I.update v (rescaleValues (I.target t.solver) (sortIndex p))
        (rescaleVariances (I.target t.solver) (sortIndex vars)) t.solver with ⟨s, res⟩
      cases res <;> simp [hu]

/-- One parameter, minimum 2, cost threshold 1. -/
noncomputable def sdTarget : Target := [⟨"c", none, some 2, none, none, some 1, some 1⟩]

/-- A solver without state. -/
noncomputable def sdSolver : SolverI Unit (Fin 1) where
  target _ := sdTarget
  setPosition _ s := s
  update _ _ _ s := (s, .ok ())
  suggest _ s := (s, .ok fun _ => some (some 0))

/-- A new tuner whose evaluators measure the parameter `c` (cheap) and the optimal voltage
`x` (expensive). -/
noncomputable def sdTuner : SDTuner Unit (Fin 1) where
  solver := ()
  tunedVoltages := []
  lastVoltage := fun _ => some 0
  lastValues := [("c", none), ("x", none)]
  lastVariances := [("c", none), ("x", none)]
  lastFailed := false
  evaluatable := []
  cheapOnly := true

/-- Outcome of one evaluator for one parameter. -/
noncomputable def one (l : String) (x : Val) : List Outcome := [.ok ([(l, x)], [(l, some 0)])]

theorem delivers_one (l : String) (x : Val) (h : l = "c" ∨ l = "x") :
    Delivers (one l x) sdTuner [(l, x)] [(l, some 0)] := by
  refine ⟨by simp [one], by simp [one, collect], ?_, ?_⟩
  · rcases h with rfl | rfl <;> simp [Series.index, sdTuner]
  · simp [Series.index]

theorem sd_row : Target.row? sdTarget "c" = some ⟨"c", none, some 2, none, none, some 1, some 1⟩ := by
  simp [sdTarget, Target.row?]

theorem sd_measured (x : ℝ) (l : String) (y : Val) :
    Measured sdTarget [("c", some x)] l y ↔ l = "c" ∧ y = some x := by
  constructor
  · rintro ⟨z, hz, rfl⟩
    simp only [List.mem_singleton, Prod.mk.injEq] at hz
    obtain ⟨rfl, rfl⟩ := hz
    refine ⟨rfl, ?_⟩
    simp [factor, sd_row, Val.div]
  · rintro ⟨rfl, rfl⟩
    exact ⟨some x, by simp, by simp [factor, sd_row, Val.div]⟩

theorem sd_noNaN (x : ℝ) : NoneNaN sdTarget [("c", some x)] := by
  intro l h
  simpa using ((sd_measured x l none).1 h).2

theorem sd_min (x : ℝ) : SomeAtOrBelow sdTarget Row.minimum [("c", some x)] ↔ x ≤ 2 := by
  constructor
  · rintro ⟨l, y, r, m, hm, hr, hc, hle⟩
    obtain ⟨rfl, hy⟩ := (sd_measured x l (some y)).1 hm
    rw [sd_row] at hr
    cases hr
    cases hc
    cases hy
    exact hle
  · intro h
    exact ⟨"c", x, _, 2, (sd_measured x _ _).2 ⟨rfl, rfl⟩, sd_row, rfl, h⟩

theorem sd_cost (x : ℝ) : SomeAtOrBelow sdTarget Row.costThreshold [("c", some x)] ↔ x ≤ 1 := by
  constructor
  · rintro ⟨l, y, r, m, hm, hr, hc, hle⟩
    obtain ⟨rfl, hy⟩ := (sd_measured x l (some y)).1 hm
    rw [sd_row] at hr
    cases hr
    cases hc
    cases hy
    exact hle
  · intro h
    exact ⟨"c", x, _, 1, (sd_measured x _ _).2 ⟨rfl, rfl⟩, sd_row, rfl, h⟩

/-- A contrast of 3 is tuned; 2, exactly the minimum, is not. -/
example : (isTuned sdSolver (one "c" (some 3)) [] (fun _ => some 0) sdTuner).2.2 = .ok true ∧
    (isTuned sdSolver (one "c" (some 2)) [] (fun _ => some 0) sdTuner).2.2 ≠ .ok true := by
  constructor
  · refine (sensing_dot_decision sdSolver _ _ _ _ _ _ (delivers_one _ _ (Or.inl rfl))).1.2 ?_
    exact ⟨sd_noNaN 3, by rw [show sdSolver.target sdTuner.solver = sdTarget from rfl, sd_min]; norm_num⟩
  · intro h
    have := (sensing_dot_decision sdSolver _ _ _ _ _ _ (delivers_one _ _ (Or.inl rfl))).1.1 h
    exact this.2 ((sd_min 2).2 le_rfl)

/-- With a contrast of 1/2 the expensive evaluators are called, with 3/2 they are not. -/
example : (.expensive : Act (Fin 1)) ∈
      (isTuned sdSolver (one "c" (some (1 / 2))) (one "x" (some 7)) (fun _ => some 0) sdTuner).2.1 ∧
    (.expensive : Act (Fin 1)) ∉
      (isTuned sdSolver (one "c" (some (3 / 2))) (one "x" (some 7)) (fun _ => some 0) sdTuner).2.1 := by
  constructor
  · rw [(expensive_on_demand sdSolver _ _ _ _ _ _ (delivers_one _ _ (Or.inl rfl))).1]
    exact ⟨sd_noNaN _, (sd_min _).2 (by norm_num), (sd_cost _).2 (by norm_num)⟩
  · rw [(expensive_on_demand sdSolver _ _ _ _ _ _ (delivers_one _ _ (Or.inl rfl))).1]
    rintro ⟨-, -, h⟩
    have := (sd_cost (3 / 2)).1 h
    norm_num at this

/-! ## C24 -/

/-- **C24 (provable part).** A NaN among the *cheaply* measured parameters is treated as a
failed evaluation: `is_tuned` returns `False`, sets the failure flag and does not touch
the solver.  Missing: the same for the expensive evaluation. -/
theorem failed_cheap_evaluation_partial (I : SolverI S ι) (cheap exp : List Outcome) (v : Volt ι)
    (t : SDTuner S ι) (p vars : Series) (hc : Delivers cheap t p vars) (l : String)
    (hnan : Measured (I.target t.solver) p l none) :
    (isTuned I cheap exp v t).2 = ([.cheap], .ok false) ∧
    (isTuned I cheap exp v t).1.lastFailed = true ∧
    (isTuned I cheap exp v t).1.solver = t.solver := by
  obtain ⟨lv, lvar, hli, hlvi, ⟨hn, h⟩ | ⟨hn, hm, h⟩ | ⟨hn, hm, h⟩⟩ :=
    isTuned_cases I cheap exp v t p vars hc
  · rw [h]; exact ⟨rfl, rfl, rfl⟩
  · exact absurd hnan (hn l)
  · exact absurd hnan (hn l)

/-- **C24 is false.** Whenever the expensive evaluators are called, the evaluation is not
marked as failed, whatever they return: a NaN they deliver is forwarded to the solver. -/
theorem failed_expensive_evaluation_unnoticed (I : SolverI S ι) (cheap exp : List Outcome)
    (v : Volt ι) (t : SDTuner S ι) (p vars : Series) (hc : Delivers cheap t p vars)
    (h : (.expensive : Act ι) ∈ (isTuned I cheap exp v t).2.1) :
    (isTuned I cheap exp v t).1.lastFailed = false := by
  obtain ⟨hn, hm, -⟩ := (expensive_on_demand I cheap exp v t p vars hc).1.1 h
  obtain ⟨lv, lvar, hli, hlvi, ⟨hn', -⟩ | ⟨-, hm', -⟩ | ⟨-, -, h⟩⟩ :=
    isTuned_cases I cheap exp v t p vars hc
  · exact absurd hn hn'
  · exact absurd hm hm'
  · rw [h]
    have hf := maybeExpensive_fields (I.target t.solver) exp
      (rescaleValues (I.target t.solver) (sortIndex p))
      (rescaleVariances (I.target t.solver) (sortIndex vars))
      { t with lastVoltage := v, lastValues := lv, lastVariances := lvar,
               lastFailed := false, cheapOnly := true }
    rcases hme : maybeExpensive (I.target t.solver) exp
      (rescaleValues (I.target t.solver) (sortIndex p))
      (rescaleVariances (I.target t.solver) (sortIndex vars))
      { t with lastVoltage := v, lastValues := lv, lastVariances := lvar,
               lastFailed := false, cheapOnly := true } with ⟨t', acts, res⟩
    rw [hme] at hf
    simp only at hf
    cases res with
    | error e => simp [hf.1]
    | ok qq =>
      obtain ⟨q, qv⟩ := qq
      rcases hu : I.update v q qv t'.solver with ⟨s, res⟩
      cases res <;> simp [hu, hf.1]

/-- **C24 refuted on a concrete case**: the expensive evaluators measure NaN, the solver is
updated with the NaN, and the evaluation does not count as failed. -/
theorem failed_expensive_evaluation_refuted :
    ∃ (cheap exp : List Outcome) (v : Volt (Fin 1)),
      Measured sdTarget [("x", none)] "x" none ∧
      Delivers exp sdTuner [("x", none)] [("x", some 0)] ∧
      (.expensive : Act (Fin 1)) ∈ (isTuned sdSolver cheap exp v sdTuner).2.1 ∧
      (isTuned sdSolver cheap exp v sdTuner).1.lastFailed = false := by
  have hc := delivers_one "c" (some (1 / 2)) (Or.inl rfl)
  have hx := delivers_one "x" none (Or.inr rfl)
  have hmem : (.expensive : Act (Fin 1)) ∈
      (isTuned sdSolver (one "c" (some (1 / 2))) (one "x" none) (fun _ => some 0) sdTuner).2.1 := by
    rw [(expensive_on_demand sdSolver _ _ _ _ _ _ hc).1]
    exact ⟨sd_noNaN _, (sd_min _).2 (by norm_num), (sd_cost _).2 (by norm_num)⟩
  exact ⟨_, _, _, ⟨none, by simp, by simp⟩, hx, hmem,
    failed_expensive_evaluation_unnoticed _ _ _ _ _ _ _ hc hmem⟩

/-! ## C77: recovery of the sensing dot -/

/-- **C77.** After a failed evaluation `get_next_voltages` returns the midpoint between the
last *tuned* voltages and the failed ones; if there never were tuned voltages it raises
`IndexError`; the tuner is not changed.  Without failure it returns the solver's
suggestion. -/
theorem sensing_dot_next (I : SolverI S ι) (tuned : List String) (t : SDTuner S ι) :
    (t.lastFailed = true → ∀ pre g, t.tunedVoltages = pre ++ [g] →
      nextVoltages I tuned t =
        (t, .ok fun i => some (Val.mul (some (1 / 2)) (Val.add (g i) (t.lastVoltage i))))) ∧
    (t.lastFailed = true → t.tunedVoltages = [] →
      nextVoltages I tuned t = (t, .error .indexError)) ∧
    (t.lastFailed = false → (nextVoltages I tuned t).2 = (I.suggest tuned t.solver).2) := by
  refine ⟨?_, ?_, ?_⟩
  · intro hf pre g hg
    unfold nextVoltages
    rw [if_pos hf, hg]
    simp [smul, vadd]
  · intro hf hg
    unfold nextVoltages
    rw [if_pos hf, hg]
    rfl
  · intro hf
    unfold nextVoltages
    rw [if_neg (by simp [hf])]

/-- A tuner that fails before it was ever tuned cannot recover. -/
example : (nextVoltages sdSolver []
    (isTuned sdSolver (one "c" none) [] (fun _ => some 0) sdTuner).1).2 = .error .indexError := by
  have hc := delivers_one "c" none (Or.inl rfl)
  have hnan : Measured (sdSolver.target sdTuner.solver) [("c", none)] "c" none :=
    ⟨none, by simp, by simp⟩
  have h := failed_cheap_evaluation_partial sdSolver _ [] (fun _ => some 0) _ _ _ hc "c" hnan
  have ht := (sensing_dot_decision sdSolver _ [] (fun _ => some 0) _ _ _ hc).2.2 (by rw [h.1]; simp)
  rw [(sensing_dot_next sdSolver [] _).2.1 h.2.1 (by rw [ht]; rfl)]

end Qtune.SensingDot
