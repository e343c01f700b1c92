import Verif.SensingDot.Props

/-! # Histories of calls of a `SensingDotTuner` (C77, C104) -/

namespace Qtune.SensingDot

open Qtune.Tuner

variable {S ι : Type}

/-! ## C77: recovery after any history of calls -/

/-- What an observer notes about a call of `is_tuned` whose cheap evaluators delivered: the voltages, whether
a measured parameter was NaN, and what the call returned. -/
structure Call (ι : Type) where
  voltages : Volt ι
  failed : Prop
  answer : Except PyErr Bool

/-- Histories of calls from a tuner `t₀` to a tuner `t`: calls of `is_tuned` whose cheap evaluators deliver (what
happens after that is arbitrary: the expensive evaluators or the solver may raise), calls of `is_tuned` whose
cheap evaluators raise, and calls of `get_next_voltages`. -/
inductive Runs (I : SolverI S ι) (t₀ : SDTuner S ι) : List (Call ι) → SDTuner S ι → Prop
  | start : Runs I t₀ [] t₀
  | call {log t} (cheap exp : List Outcome) (v : Volt ι) (p vars : Series) : Runs I t₀ log t →
      Delivers cheap t p vars →
      Runs I t₀ (log ++ [⟨v, ¬ NoneNaN (I.target t.solver) p, (isTuned I cheap exp v t).2.2⟩])
        (isTuned I cheap exp v t).1
  | raised {log t} (cheap exp : List Outcome) (v : Volt ι) (e : PyErr) : Runs I t₀ log t →
      collect cheap = .error e → Runs I t₀ log (isTuned I cheap exp v t).1
  | next {log t} (tuned : List String) : Runs I t₀ log t → Runs I t₀ log (nextVoltages I tuned t).1

theorem isTuned_voltage_flag (I : SolverI S ι) (cheap exp : List Outcome) (v : Volt ι)
    (t : SDTuner S ι) (p vars : Series) (hc : Delivers cheap t p vars) :
    (isTuned I cheap exp v t).1.lastVoltage = v ∧
    ((isTuned I cheap exp v t).1.lastFailed = true ↔ ¬ NoneNaN (I.target t.solver) p) := by
  obtain ⟨lv, lvar, hli, hlvi, ⟨hn, h⟩ | ⟨hn, hm, h⟩ | ⟨hn, hm, h⟩⟩ :=
    isTuned_cases I cheap exp v t p vars hc
  · rw [h]; simp [hn]
  · rw [h]; simp [hn]
  · rw [h]
    have hf := maybeExpensive_fields (I.target t.solver) exp
      (rescaleValues (I.target t.solver) (sortIndex p))
      (rescaleVariances (I.target t.solver) (sortIndex vars))
      { t with lastVoltage := v, lastValues := lv, lastVariances := lvar,
               lastFailed := false, cheapOnly := true }
    rcases hme : maybeExpensive (I.target t.solver) exp
      (rescaleValues (I.target t.solver) (sortIndex p))
      (rescaleVariances (I.target t.solver) (sortIndex vars))
      { t with lastVoltage := v, lastValues := lv, lastVariances := lvar,
               lastFailed := false, cheapOnly := true } with ⟨t', acts, res⟩
    rw [hme] at hf
    simp only at hf
    cases res with
    | error e => simp [hn, hf.1, hf.2.2.1]
    | ok qq =>
      obtain ⟨q, qv⟩ := qq
      rcases hu : I.update v q qv t'.solver with ⟨s, res⟩
      cases res <;> simp [hu, hn, hf.1, hf.2.2.1]

theorem isTuned_raised (I : SolverI S ι) (cheap exp : List Outcome) (v : Volt ι) (t : SDTuner S ι)
    (e : PyErr) (h : collect cheap = .error e) : isTuned I cheap exp v t = (t, [.cheap], .error e) := by
  unfold isTuned evaluate
  simp only [h]

theorem nextVoltages_fields (I : SolverI S ι) (tuned : List String) (t : SDTuner S ι) :
    (nextVoltages I tuned t).1.lastFailed = t.lastFailed ∧
    (nextVoltages I tuned t).1.tunedVoltages = t.tunedVoltages ∧
    (nextVoltages I tuned t).1.lastVoltage = t.lastVoltage := by
  unfold nextVoltages
  split
  · split <;> exact ⟨rfl, rfl, rfl⟩
  · split; exact ⟨rfl, rfl, rfl⟩

/-- The voltages for which `is_tuned` returned `True`, oldest first. -/
def tunedPoints (log : List (Call ι)) : List (Volt ι) :=
  log.filterMap fun c => match c.answer with
    | .ok true => some c.voltages
    | _ => none

theorem Runs.state {I : SolverI S ι} {t₀ t : SDTuner S ι} {log : List (Call ι)}
    (hr : Runs I t₀ log t) :
    t.tunedVoltages = t₀.tunedVoltages ++ tunedPoints log ∧
    ∀ pre c, log = pre ++ [c] → t.lastVoltage = c.voltages ∧ (t.lastFailed = true ↔ c.failed) := by
  induction hr with
  | start => simp [tunedPoints]
  | @call log t cheap exp v p vars _ hc ih =>
    obtain ⟨h1, h2, h3⟩ := sensing_dot_decision I cheap exp v t p vars hc
    refine ⟨?_, ?_⟩
    · by_cases hb : (isTuned I cheap exp v t).2.2 = .ok true
      · rw [h2 hb, ih.1]
        simp [tunedPoints, hb]
      · rw [h3 hb, ih.1]
        unfold tunedPoints
        rw [List.filterMap_append]
        have : List.filterMap (fun c : Call ι => match c.answer with
            | .ok true => some c.voltages
            | _ => none)
            [⟨v, ¬ NoneNaN (I.target t.solver) p, (isTuned I cheap exp v t).2.2⟩] = [] := by
          rw [List.filterMap_cons_none]
          · rfl
          · dsimp only
            split
            · next heq => exact absurd heq hb
            · rfl
        rw [this, List.append_nil]
    · intro pre c hpc
      obtain ⟨-, hc'⟩ := List.append_inj' hpc rfl
      cases hc'
      exact isTuned_voltage_flag I cheap exp v t p vars hc
  | @raised log t cheap exp v e _ he ih =>
    rw [isTuned_raised I cheap exp v t e he]
    exact ih
  | @next log t tuned _ ih =>
    obtain ⟨h1, h2, h3⟩ := nextVoltages_fields I tuned t
    rw [h2, h3, h1]
    exact ih

/-- **C77 for every history.** Take a new tuner (no tuned voltages) and any history of calls; let `c` be the last
call of `is_tuned` whose cheap evaluators delivered.  If a parameter of `c` was NaN, `get_next_voltages` returns
the midpoint between the voltages of the last call that returned `True` and those of `c`, raises `IndexError` if
no call returned `True`, and does not ask the solver (its state is unchanged).  If no parameter of `c` was NaN it
returns what the solver suggests. -/
theorem sensing_dot_recovery (I : SolverI S ι) (tuned : List String) (t₀ t : SDTuner S ι)
    (h₀ : t₀.tunedVoltages = []) (pre : List (Call ι)) (c : Call ι) (hr : Runs I t₀ (pre ++ [c]) t) :
    (c.failed → ∀ older g, tunedPoints (pre ++ [c]) = older ++ [g] → nextVoltages I tuned t =
      (t, .ok fun i => some (Val.mul (some (1 / 2)) (Val.add (g i) (c.voltages i))))) ∧
    (c.failed → tunedPoints (pre ++ [c]) = [] → nextVoltages I tuned t = (t, .error .indexError)) ∧
    (¬ c.failed → (nextVoltages I tuned t).2 = (I.suggest tuned t.solver).2) := by
  obtain ⟨ht, hl⟩ := hr.state
  obtain ⟨hv, hf⟩ := hl pre c rfl
  rw [h₀, List.nil_append] at ht
  obtain ⟨a, b, d⟩ := sensing_dot_next I tuned t
  refine ⟨fun hc older g hg => ?_, fun hc hg => b (hf.2 hc) (ht.trans hg), fun hc => d ?_⟩
  · rw [a (hf.2 hc) older g (ht.trans hg), hv]
  · cases h : t.lastFailed with
    | false => rfl
    | true => exact absurd (hf.1 h) hc

/-- The sensing dot is tuned at 4, then a scan at 6 gives NaN: the next voltage is 5. -/
example : (nextVoltages sdSolver []
    (isTuned sdSolver (one "c" none) [] (fun _ => some 6)
      (isTuned sdSolver (one "c" (some 3)) [] (fun _ => some 4) sdTuner).1).1).2 =
    .ok fun _ => some (some 5) := by
  have hc := delivers_one "c" (some 3) (Or.inl rfl)
  have h1 := (sensing_dot_decision sdSolver _ [] (fun _ => some 4) _ _ _ hc).1.2
    ⟨sd_noNaN 3, by rw [show sdSolver.target sdTuner.solver = sdTarget from rfl, sd_min]; norm_num⟩
  have hi : Delivers (one "c" none) (isTuned sdSolver (one "c" (some 3)) [] (fun _ => some 4) sdTuner).1
      [("c", none)] [("c", some 0)] := by
    obtain ⟨lv, lvar, hli, hlvi, ⟨hn, h⟩ | ⟨hn, hm, h⟩ | ⟨hn, hm, h⟩⟩ :=
      isTuned_cases sdSolver (one "c" (some 3)) [] (fun _ => some 4) sdTuner _ _ hc
    · exact absurd (sd_noNaN 3) hn
    · rw [h]
      refine ⟨by simp [one], by simp [one, collect], ?_, by simp [Series.index]⟩
      intro l hl
      rw [show (Series.index [("c", none)]) = ["c"] from rfl, List.mem_singleton] at hl
      subst hl
      constructor
      · rw [hli]; simp [Series.index, sdTuner]
      · rw [hlvi]; simp [Series.index, sdTuner]
    · exact absurd ((sd_min 3).1 hm) (by norm_num)
  have run := Runs.call (one "c" none) [] (fun _ => some 6) _ _
    (Runs.call (one "c" (some 3)) [] (fun _ => some 4) _ _ (Runs.start (I := sdSolver) (t₀ := sdTuner)) hc) hi
  have hfail : ¬ NoneNaN (sdSolver.target
      (isTuned sdSolver (one "c" (some 3)) [] (fun _ => some 4) sdTuner).1.solver) [("c", none)] := by
    intro h
    exact h "c" ⟨none, by simp, by simp⟩
  have h2 := (sensing_dot_decision sdSolver _ [] (fun _ => some 6) _ _ _ hi).1
  have key := (sensing_dot_recovery sdSolver [] sdTuner _ rfl _ _ run).1 hfail [] (fun _ => some 4) (by
    have hne : (isTuned sdSolver (one "c" none) [] (fun _ => some 6)
      (isTuned sdSolver (one "c" (some 3)) [] (fun _ => some 4) sdTuner).1).2.2 ≠ .ok true :=
      fun h => hfail (h2.1 h).1
    unfold tunedPoints
    rw [List.nil_append, List.singleton_append, List.filterMap_cons_some (b := fun _ => some 4) (by
      dsimp only; rw [h1]), List.filterMap_cons_none (by
      dsimp only; split
      · next heq => exact absurd heq hne
      · rfl)]
    rfl)
  rw [key]
  norm_num [Val.mul, Val.add]

/-! ## C104: which evaluators the history reads -/

/-- The evaluators of a sensing dot tuner whose raw data `History` stores (`read_evaluator_data_from_autotuner`,
history.py:586-593).  Simplification: evaluators without raw data are left out later. -/
def historyEvaluators {E : Type} (t : SDTuner S ι) (cheap expensive : List E) : List E :=
  if t.cheapOnly then cheap else cheap ++ expensive

/-- **C104 (provable part).** After a call of `is_tuned` in which no cheaply measured parameter was NaN, the
history reads the data of the expensive evaluators exactly if they were called in this call.  Missing: calls with
NaN, see `history_evaluators_refuted`. -/
theorem history_evaluators_partial {E : Type} (I : SolverI S ι) (cheap exp : List Outcome) (v : Volt ι)
    (t : SDTuner S ι) (p vars : Series) (hc : Delivers cheap t p vars)
    (hn : NoneNaN (I.target t.solver) p) (ce ee : List E) :
    ((.expensive : Act ι) ∈ (isTuned I cheap exp v t).2.1 →
      historyEvaluators (isTuned I cheap exp v t).1 ce ee = ce ++ ee) ∧
    ((.expensive : Act ι) ∉ (isTuned I cheap exp v t).2.1 →
      historyEvaluators (isTuned I cheap exp v t).1 ce ee = ce) := by
  have hiff := (expensive_on_demand I cheap exp v t p vars hc).1
  suffices h : (isTuned I cheap exp v t).1.cheapOnly = true ↔
      (.expensive : Act ι) ∉ (isTuned I cheap exp v t).2.1 by
    constructor
    · intro he
      unfold historyEvaluators
      rw [if_neg (fun hh => h.1 hh he)]
    · intro he
      unfold historyEvaluators
      rw [if_pos (h.2 he)]
  rw [hiff]
  obtain ⟨lv, lvar, hli, hlvi, ⟨hn', h⟩ | ⟨-, hm, h⟩ | ⟨-, hm, h⟩⟩ :=
    isTuned_cases I cheap exp v t p vars hc
  · exact absurd hn hn'
  · rw [h]; simp [hm]
  · have hme : ∀ t' : SDTuner S ι, t'.cheapOnly = true →
        ((maybeExpensive (I.target t.solver) exp (rescaleValues (I.target t.solver) (sortIndex p))
          (rescaleVariances (I.target t.solver) (sortIndex vars)) t').1.cheapOnly = true ↔
        ¬ SomeAtOrBelow (I.target t.solver) Row.costThreshold p) := by
      intro t' ht'
      rw [← anyLe_iff]
      unfold maybeExpensive
      by_cases ha : anyLe (I.target t.solver) Row.costThreshold
          (rescaleValues (I.target t.solver) (sortIndex p)) = true
      · rw [if_pos ha]
        simp only [ha, not_true_eq_false, iff_false]
        repeat' split
        all_goals simp
      · rw [if_neg ha]
        simp [ha, ht']
    rw [h]
    have hh := hme { t with lastVoltage := v, lastValues := lv, lastVariances := lvar,
                            lastFailed := false, cheapOnly := true } rfl
    rcases hme : maybeExpensive (I.target t.solver) exp
      (rescaleValues (I.target t.solver) (sortIndex p))
      (rescaleVariances (I.target t.solver) (sortIndex vars))
      { t with lastVoltage := v, lastValues := lv, lastVariances := lvar,
               lastFailed := false, cheapOnly := true } with ⟨t', acts, res⟩
    rw [hme] at hh
    simp only at hh
    cases res with
    | error e => simp [hn, hm, hh]
    | ok qq =>
      obtain ⟨q, qv⟩ := qq
      rcases hu : I.update v q qv t'.solver with ⟨s, res⟩
      cases res <;> simp [hu, hn, hm, hh]

/-- **C104 is false** after a failed scan: the flag of the previous call survives.  In a state that a call with
expensive evaluators leaves behind, every call with a NaN makes the history store the old data of the expensive
evaluators again although they were not called. -/
theorem history_evaluators_refuted {E : Type} (I : SolverI S ι) (cheap exp : List Outcome) (v : Volt ι)
    (t : SDTuner S ι) (p vars : Series) (hc : Delivers cheap t p vars)
    (hn : ¬ NoneNaN (I.target t.solver) p) (hflag : t.cheapOnly = false) (ce ee : List E) :
    (.expensive : Act ι) ∉ (isTuned I cheap exp v t).2.1 ∧
    historyEvaluators (isTuned I cheap exp v t).1 ce ee = ce ++ ee := by
  obtain ⟨lv, lvar, hli, hlvi, ⟨_, h⟩ | ⟨hn', -⟩ | ⟨hn', -⟩⟩ := isTuned_cases I cheap exp v t p vars hc
  · rw [h]
    simp [historyEvaluators, hflag]
  · exact absurd hn' hn
  · exact absurd hn' hn

/-- The state in `history_evaluators_refuted` exists: a scan with contrast 1/2 calls the expensive evaluators. -/
example : (isTuned sdSolver (one "c" (some (1 / 2))) (one "x" (some 7)) (fun _ => some 0) sdTuner).1.cheapOnly
    = false := by
  have hc := delivers_one "c" (some (1 / 2)) (Or.inl rfl)
  have he := (expensive_on_demand sdSolver _ (one "x" (some 7)) (fun _ => some 0) _ _ _ hc).1.2
    ⟨sd_noNaN _, (sd_min _).2 (by norm_num), (sd_cost _).2 (by norm_num)⟩
  have := (history_evaluators_partial sdSolver _ (one "x" (some 7)) (fun _ => some 0) _ _ _ hc
    (sd_noNaN _) [0] [1]).1 he
  unfold historyEvaluators at this
  split at this
  · cases this
  · next h => simpa using h

end Qtune.SensingDot
