import Verif.Tuner.Reload

/-! # C204: which tuners can be constructed -/

namespace Qtune.Tuner

variable {S ι : Type}

/-! ### Specification -/

/-- All six columns of the target have an entry for the parameter. -/
def Row.Complete (r : Row) : Prop :=
  r.desired ≠ none ∧ r.minimum ≠ none ∧ r.maximum ≠ none ∧ r.tolerance ≠ none ∧ r.costThreshold ≠ none ∧ r.rescaling ≠ none

/-- Some column of the target has an entry for the parameter. -/
def Row.Used (r : Row) : Prop :=
  r.desired ≠ none ∨ r.minimum ≠ none ∨ r.maximum ≠ none ∨ r.tolerance ≠ none ∨ r.costThreshold ≠ none ∨ r.rescaling ≠ none

/-- The evaluators return values of their own parameters, or raise. -/
def MeasuresOnly (parameters : List String) (outs : List Outcome) : Prop :=
  ∀ p v, .ok (p, v) ∈ outs → ∀ l ∈ p.index, l ∈ parameters

/-! ### Lemmas -/

theorem mem_rowsComplete {T : Target} {l : String} : l ∈ rowsComplete T ↔ ∃ r ∈ T, Row.Complete r ∧ r.name = l := by
  simp only [rowsComplete, Target.names, List.mem_map, List.mem_filter, Target.columns, List.all_cons, List.all_nil, Bool.and_true,
    Bool.and_eq_true, Option.isSome_iff_ne_none, Row.Complete, and_assoc]

theorem mem_rowsNotEmpty_iff {T : Target} {l : String} : l ∈ rowsNotEmpty T ↔ ∃ r ∈ T, Row.Used r ∧ r.name = l := by
  simp only [rowsNotEmpty, Target.names, List.mem_map, List.mem_filter, Target.columns, List.any_cons, List.any_nil, Bool.or_false,
    Bool.or_eq_true, Option.isSome_iff_ne_none, Row.Used, and_assoc]

/-- **C204**, what is checked: a tuner is constructed exactly if stored values are there for all parameters with an entry in the
target, stored variances for all parameters, no parameter belongs to two evaluators, and there is an evaluator for each parameter
for which all six columns of the target have an entry.  Missing: the other parameters, see `missing_evaluator_refuted`. -/
theorem construct_iff_partial (I : SolverI S ι) (a : Args S ι) :
    (∃ t, construct I a = .ok t) ↔
      (∀ s, a.lastValues = some s → ∀ r ∈ I.target a.solver, Row.Used r → r.name ∈ s.index) ∧
      (∀ s, a.lastVariances = some s → ∀ r ∈ I.target a.solver, r.name ∈ s.index) ∧
      a.evaluatorParameters.Nodup ∧
      ∀ r ∈ I.target a.solver, Row.Complete r → r.name ∈ a.evaluatorParameters := by
  have h1 : (a.lastValues.any fun s => !(rowsNotEmpty (I.target a.solver)).all s.index.contains) = true ↔
      ¬ ∀ s, a.lastValues = some s → ∀ r ∈ I.target a.solver, Row.Used r → r.name ∈ s.index := by
    cases a.lastValues with
    | none => simp
    | some s =>
      simp only [Option.any_some, Bool.not_eq_true', Bool.eq_false_iff, ne_eq, List.all_eq_true, List.contains_iff_mem,
        mem_rowsNotEmpty_iff, Option.some.injEq, forall_eq']
      refine not_congr ⟨fun h r hr hu => h _ ⟨r, hr, hu, rfl⟩, ?_⟩
      rintro h l ⟨r, hr, hu, rfl⟩
      exact h r hr hu
  have h2 : (a.lastVariances.any fun s => !(I.target a.solver).names.all s.index.contains) = true ↔
      ¬ ∀ s, a.lastVariances = some s → ∀ r ∈ I.target a.solver, r.name ∈ s.index := by
    cases a.lastVariances with
    | none => simp
    | some s =>
      simp only [Option.any_some, Bool.not_eq_true', Bool.eq_false_iff, ne_eq, List.all_eq_true, List.contains_iff_mem,
        Option.some.injEq, forall_eq', Target.names, List.mem_map, forall_exists_index, and_imp, forall_apply_eq_imp_iff₂]
  have h4 : (!(rowsComplete (I.target a.solver)).all a.evaluatorParameters.contains) = true ↔
      ¬ ∀ r ∈ I.target a.solver, Row.Complete r → r.name ∈ a.evaluatorParameters := by
    simp only [Bool.not_eq_true', Bool.eq_false_iff, ne_eq, List.all_eq_true, List.contains_iff_mem, mem_rowsComplete]
    refine not_congr ⟨fun h r hr hu => h _ ⟨r, hr, hu, rfl⟩, ?_⟩
    rintro h l ⟨r, hr, hu, rfl⟩
    exact h r hr hu
  unfold construct
  simp only
  split
  · rename_i h
    exact ⟨fun ⟨_, h'⟩ => (nomatch h'), fun h' => absurd h'.1 (h1.1 h)⟩
  · split
    · rename_i h
      exact ⟨fun ⟨_, h'⟩ => (nomatch h'), fun h' => absurd h'.2.1 (h2.1 h)⟩
    · split
      · rename_i h
        exact ⟨fun ⟨_, h'⟩ => (nomatch h'), fun h' => absurd h'.2.2.1 h⟩
      · split
        · rename_i h
          exact ⟨fun ⟨_, h'⟩ => (nomatch h'), fun h' => absurd h'.2.2.2 (h4.1 h)⟩
        · rename_i a1 a2 a3 a4
          exact ⟨fun _ => ⟨not_not.1 (mt h1.2 a1), not_not.1 (mt h2.2 a2), not_not.1 a3, not_not.1 (mt h4.2 a4)⟩, fun _ => ⟨_, rfl⟩⟩

/-- **C204** for targets with entries in all six columns for all parameters: there is an evaluator for each. -/
theorem complete_target_partial (I : SolverI S ι) (a : Args S ι) (hT : ∀ r ∈ I.target a.solver, Row.Complete r)
    (t : SubsetTuner S ι) (h : construct I a = .ok t) : ∀ l ∈ (I.target a.solver).names, l ∈ a.evaluatorParameters := by
  intro l hl
  obtain ⟨r, hr, rfl⟩ := List.mem_map.1 hl
  exact ((construct_iff_partial I a).1 ⟨t, h⟩).2.2.2 r hr (hT r hr)

/-- **C204** is false: as soon as a column of the target is not used, for instance because there are no limits on the parameters,
a new tuner is constructed with any evaluators, also without any. -/
theorem missing_evaluator_refuted (I : SolverI S ι) (a : Args S ι) (ha : a.lastValues = none) (ha' : a.lastVariances = none)
    (hn : a.evaluatorParameters.Nodup) (column : Row → Val) (hc : column ∈ Target.columns)
    (hT : ∀ r ∈ I.target a.solver, column r = none) : ∃ t, construct I a = .ok t := by
  refine (construct_iff_partial I a).2 ⟨by simp [ha], by simp [ha'], hn, fun r hr h => ?_⟩
  have := hT r hr
  obtain ⟨h1, h2, h3, h4, h5, h6⟩ := h
  simp only [Target.columns, List.mem_cons, List.not_mem_nil, or_false] at hc
  rcases hc with rfl | rfl | rfl | rfl | rfl | rfl <;> contradiction

theorem collect_index {parameters : List String} {outs : List Outcome} (h : MeasuresOnly parameters outs) {p v : Series}
    (hc : collect outs = .ok (p, v)) : ∀ l ∈ p.index, l ∈ parameters := by
  induction outs generalizing p v with
  | nil =>
    cases hc
    simp [Series.index]
  | cons o outs ih =>
    rcases o with e | ⟨p', v'⟩
    · cases hc
    · unfold collect at hc
      split at hc
      · cases hc
      · rename_i ps vs hr
        cases hc
        intro l hl
        simp only [Series.index, List.map_append, List.mem_append] at hl
        rcases hl with hl | hl
        · exact h p' v' (by simp) l hl
        · exact ih (fun p v hm => h p v (by simp [hm])) hr l hl

/-- The evaluation of a tuner that has no evaluator for one of its parameters. -/
theorem unmeasured_step (I : SolverI S ι) (outs : List Outcome) (v : Volt ι) (t : SubsetTuner S ι)
    (parameters : List String) (ho : MeasuresOnly parameters outs) (l : String) (hl : l ∈ t.lastValues.index) (hm : l ∉ parameters) :
    (isTuned I outs v t).2 ≠ .ok true ∧ (isTuned I outs v t).1.evaluatable = t.evaluatable ∧
      l ∈ (isTuned I outs v t).1.lastValues.index ∧ (isTuned I outs v t).1.tunedVoltages = t.tunedVoltages := by
  unfold isTuned
  simp only
  split
  · exact ⟨by simp, rfl, hl, rfl⟩
  split
  · exact ⟨by simp, rfl, hl, rfl⟩
  rename_i p vars he
  split
  · exact ⟨by simp, rfl, hl, rfl⟩
  rename_i lv hlv
  have hidx : l ∈ Series.index lv := by rw [Series.select_ok hlv, Series.index_map_mk]; exact hl
  split
  · exact ⟨by simp, rfl, hidx, rfl⟩
  split
  · exact ⟨by simp, rfl, hidx, rfl⟩
  rename_i hany
  exfalso
  apply hany
  rw [List.any_eq_true]
  refine ⟨(l, Series.val (rescaleValues (I.target t.solver) p) l), ?_, ?_⟩
  · rw [Series.select_ok hlv]
    exact List.mem_map.2 ⟨l, hl, rfl⟩
  · have hp : p.val l = none := by
      unfold evaluate at he
      split at he
      · cases he
      · rename_i ps vs hcol
        split at he
        · cases he
        · rename_i p' hsel
          split at he
          · cases he
          · cases he
            rw [Series.select_ok hsel, Series.val_map_mk]
            split
            · have : l ∉ ps.index := fun h => hm (collect_index ho hcol l h)
              have hlk : List.lookup l ps = none := by
                rw [List.lookup_eq_none_iff]
                intro e he
                simp only [bne_iff_ne, ne_eq, beq_eq_false_iff_ne]
                rintro rfl
                exact this (List.mem_map_of_mem he)
              simp [Series.val, hlk]
            · rfl
    have hlook : ∀ (q : Series), q.val l = none → (rescaleValues (I.target t.solver) q).val l = none := by
      intro q
      induction q with
      | nil => intro _; rfl
      | cons e q ih =>
        obtain ⟨m, x⟩ := e
        intro hq
        by_cases hle : l = m
        · subst hle
          have hx : x = none := by simpa [Series.val] using hq
          simp [Series.val, rescaleValues, hx, Val.div]
        · have hb : (l == m) = false := beq_eq_false_iff_ne.2 hle
          have hq' : Series.val q l = none := by simpa [Series.val, List.lookup_cons, hb] using hq
          have := ih hq'
          simpa [Series.val, rescaleValues, List.lookup_cons, hb] using this
    simp [hlook p hp]

/-- **C204**, consequence: such a tuner is never tuned.  Whatever its evaluators return or raise, and whatever is called, a new tuner with
a parameter that none of the evaluators measures never answers `True`, keeps no evaluatable voltages, and a suggestion after an evaluation that
returned `False` with no steps queued raises `IndexError`. -/
theorem unmeasured_never_tuned_refuted [Fintype ι] (I : SolverI S ι) (a : Args S ι) (ha : a.lastValues = none)
    (he : a.evaluatable = none) (hT : a.tunedVoltages = none) (l : String) (hl : l ∈ (I.target a.solver).relevant) (hm : l ∉ a.evaluatorParameters)
    (t₀ : SubsetTuner S ι) (h₀ : construct I a = .ok t₀)
    (calls : List (List Outcome × Volt ι ⊕ List String))
    (hc : ∀ outs v, .inl (outs, v) ∈ calls → MeasuresOnly a.evaluatorParameters outs) :
    let t := calls.foldl (fun t c => match c with
      | .inl (outs, v) => (isTuned I outs v t).1
      | .inr tuned => (nextVoltages I tuned t).1) t₀
    t.tunedVoltages = [] ∧ t.evaluatable = [] ∧
    ∀ outs v, MeasuresOnly a.evaluatorParameters outs → (isTuned I outs v t).2 ≠ .ok true ∧
      ∀ tuned, (isTuned I outs v t).1.lastFailed = true → (nextVoltages I tuned (isTuned I outs v t).1).2 = .error .indexError := by
  intro t
  have key : ∀ (calls : List (List Outcome × Volt ι ⊕ List String)) (t₀ : SubsetTuner S ι),
      (∀ outs v, .inl (outs, v) ∈ calls → MeasuresOnly a.evaluatorParameters outs) →
      t₀.tunedVoltages = [] → t₀.evaluatable = [] → l ∈ t₀.lastValues.index →
      let t := calls.foldl (fun t c => match c with
        | .inl (outs, v) => (isTuned I outs v t).1
        | .inr tuned => (nextVoltages I tuned t).1) t₀
      t.tunedVoltages = [] ∧ t.evaluatable = [] ∧ l ∈ t.lastValues.index := by
    intro calls
    induction calls with
    | nil => exact fun t _ h1 h2 h3 => ⟨h1, h2, h3⟩
    | cons c calls ih =>
      intro t hc h1 h2 h3
      rw [List.foldl_cons]
      rcases c with ⟨outs, v⟩ | tuned
      · obtain ⟨-, g2, g3, g4⟩ := unmeasured_step I outs v t _ (hc outs v (by simp)) l h3 hm
        exact ih _ (fun o w h => hc o w (by simp [h])) (g4.trans h1) (g2.trans h2) g3
      · have g : (nextVoltages I tuned t).1.tunedVoltages = t.tunedVoltages ∧ (nextVoltages I tuned t).1.evaluatable = t.evaluatable ∧
            (nextVoltages I tuned t).1.lastValues = t.lastValues := by
          unfold nextVoltages
          split
          · split <;> exact ⟨rfl, rfl, rfl⟩
          · split
            · exact ⟨rfl, rfl, rfl⟩
            · simp only
              split <;> exact ⟨rfl, rfl, rfl⟩
        exact ih _ (fun o w h => hc o w (by simp [h])) (g.1.trans h1) (g.2.1.trans h2) (g.2.2 ▸ h3)
  have hnew : t₀.tunedVoltages = [] ∧ t₀.evaluatable = [] ∧ l ∈ t₀.lastValues.index := by
    refine ⟨?_, ?_, (construct_ok h₀).2.2.2.1 ha ▸ hl⟩
    all_goals
      unfold construct at h₀
      simp only at h₀
      repeat' split at h₀
      all_goals first
        | cases h₀; done
        | (cases h₀; simp [hT, he])
  obtain ⟨k1, k2, k3⟩ := key calls t₀ hc hnew.1 hnew.2.1 hnew.2.2
  refine ⟨k1, k2, fun outs v ho => ?_⟩
  obtain ⟨g1, g2, -, -⟩ := unmeasured_step I outs v t _ ho l k3 hm
  refine ⟨g1, fun tuned hf => ?_⟩
  unfold nextVoltages
  rw [if_pos hf, g2, k2]
  rfl

/-- A target without limits: a tuner is constructed without evaluators, although its parameter is relevant. -/
example : (∃ t, construct (constSolver goodTarget) { newArgs with evaluatorParameters := [] } = .ok t) ∧
    "a" ∈ (goodTarget : Target).relevant ∧ "a" ∉ ({ newArgs with evaluatorParameters := [] } : Args Unit (Fin 1)).evaluatorParameters := by
  refine ⟨missing_evaluator_refuted _ _ rfl rfl (by simp) Row.minimum (by simp [Target.columns]) ?_, ?_, by simp⟩
  · simp [constSolver, goodTarget]
  · simp [goodTarget, Target.relevant, Target.columns, Target.names]

/-- A target with entries in all columns. -/
example : Row.Complete ⟨"a", some 0, some (-1), some 1, some 1, some 1, some 2⟩ := by simp [Row.Complete]

end Qtune.Tuner
