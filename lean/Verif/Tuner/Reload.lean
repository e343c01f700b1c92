import Verif.Tuner.Props

/-!
# Saving and reloading a `SubsetTuner` (C25)

Constructor (parameter_tuner.py:32-95, 199-216) and `to_hdf5` (185-193, 279-285).  That a
file gives back the stored constructor arguments is the subject of `Verif/Storage`.
-/

namespace Qtune.Tuner

variable {S ι : Type}

/-- `target.dropna(how='all').index` (parameter_tuner.py:74). -/
def rowsNotEmpty (T : Target) : List String :=
  Target.names (T.filter fun r => Target.columns.any fun c => (c r).isSome)

/-- `target.dropna().index` (parameter_tuner.py:95). -/
def rowsComplete (T : Target) : List String :=
  Target.names (T.filter fun r => Target.columns.all fun c => (c r).isSome)

/-- Constructor arguments of a `SubsetTuner`; `none` means that the argument is left at its
default `None`.  Simplifications: the last voltages are given, the evaluators are
represented by the names of their parameters, and the comparison of the gates with the
solver's position (line 212), both of which are stored and restored as they are, is left
out. -/
structure Args (S ι : Type) where
  evaluatorParameters : List String
  solver : S
  tunedVoltages : Option (List (Volt ι))
  lastVoltage : Volt ι
  lastValues : Option Series
  lastVariances : Option Series
  lastFailed : Bool
  evaluatable : Option (List (Volt ι))
  maxStep : Val
  maxNumber : Int
  queued : Int

/-- `ParameterTuner.__init__` and `SubsetTuner.__init__` (parameter_tuner.py:54-95,
209-216). -/
def construct (I : SolverI S ι) (a : Args S ι) : Except PyErr (SubsetTuner S ι) :=
  let T := I.target a.solver
  let fresh : Series := T.relevant.map fun l => (l, none)                       -- lines 63-65
  if a.lastValues.any fun s => !(rowsNotEmpty T).all s.index.contains then      -- line 74
    .error .assertionError
  else if a.lastVariances.any fun s => !T.names.all s.index.contains then       -- line 85
    .error .assertionError
  else if ¬ a.evaluatorParameters.Nodup then .error .valueError                 -- lines 93-94
  else if !(rowsComplete T).all a.evaluatorParameters.contains then             -- line 95
    .error .assertionError
  else .ok
    { solver := a.solver
      tunedVoltages := a.tunedVoltages.getD []                                  -- line 54
      lastVoltage := a.lastVoltage
      lastValues := a.lastValues.getD fresh
      lastVariances := a.lastVariances.getD fresh
      lastFailed := a.lastFailed
      evaluatable := a.evaluatable.getD []                                      -- line 60
      maxStep := a.maxStep
      maxNumber := a.maxNumber
      queued := a.queued }

/-- `SubsetTuner.to_hdf5` (parameter_tuner.py:185-193, 279-285).  The evaluators are not
part of the model's tuner state; their parameters are passed along. -/
def save (evaluatorParameters : List String) (t : SubsetTuner S ι) : Args S ι where
  evaluatorParameters := evaluatorParameters
  solver := t.solver
  tunedVoltages := some t.tunedVoltages
  lastVoltage := t.lastVoltage
  lastValues := some t.lastValues
  lastVariances := some t.lastVariances
  lastFailed := t.lastFailed
  evaluatable := some t.evaluatable
  maxStep := t.maxStep
  maxNumber := t.maxNumber
  queued := t.queued

/-- The states of a tuner after any sequence of calls of `is_tuned` and
`get_next_voltages`, whether they raise or not. -/
inductive Reach [Fintype ι] (I : SolverI S ι) (t₀ : SubsetTuner S ι) : SubsetTuner S ι → Prop
  | start : Reach I t₀ t₀
  | evaluate {t : SubsetTuner S ι} (outs : List Outcome) (v : Volt ι) :
      Reach I t₀ t → Reach I t₀ (isTuned I outs v t).1
  | suggest {t : SubsetTuner S ι} (tuned : List String) :
      Reach I t₀ t → Reach I t₀ (nextVoltages I tuned t).1

/-- The solver never exchanges its target by itself. -/
def KeepsTarget (I : SolverI S ι) : Prop :=
  (∀ v s, I.target (I.setPosition v s) = I.target s) ∧
  (∀ v p q s, I.target (I.update v p q s).1 = I.target s) ∧
  (∀ l s, I.target (I.suggest l s).1 = I.target s)

/-! ## Helper lemmas -/

theorem isTuned_keeps (I : SolverI S ι) (hI : KeepsTarget I) (outs : List Outcome) (v : Volt ι)
    (t : SubsetTuner S ι) (hidx : t.lastVariances.index = t.lastValues.index) :
    I.target (isTuned I outs v t).1.solver = I.target t.solver ∧
    ((isTuned I outs v t).1.lastVariances.index = (isTuned I outs v t).1.lastValues.index) := by
  unfold isTuned
  simp only
  split
  · exact ⟨hI.1 _ _, hidx⟩
  · split
    · exact ⟨rfl, hidx⟩
    · split
      · exact ⟨rfl, hidx⟩
      · rename_i lv hlv
        have h1 : Series.index lv = t.lastValues.index := by
          rw [Series.select_ok hlv, Series.index_map_mk]
        split
        · exact ⟨rfl, hidx.trans h1.symm⟩
        · rename_i lvar hlvar
          have h2 : Series.index lvar = Series.index lv := by
            rw [Series.select_ok hlvar, Series.index_map_mk]
          split
          · exact ⟨rfl, h2⟩
          · split
            · rename_i s e hu
              exact ⟨(congrArg (fun x => I.target x.1) hu).symm.trans (hI.2.1 _ _ _ _), h2⟩
            · rename_i s hu
              have := (congrArg (fun x => I.target x.1) hu).symm.trans (hI.2.1 _ _ _ _)
              split <;> exact ⟨this, h2⟩

theorem nextVoltages_keeps [Fintype ι] (I : SolverI S ι) (hI : KeepsTarget I)
    (tuned : List String) (t : SubsetTuner S ι) :
    I.target (nextVoltages I tuned t).1.solver = I.target t.solver ∧
    (nextVoltages I tuned t).1.lastVariances = t.lastVariances ∧
    (nextVoltages I tuned t).1.lastValues = t.lastValues := by
  unfold nextVoltages
  simp only
  split
  · split <;> exact ⟨rfl, rfl, rfl⟩
  · split
    · rename_i s e hu
      exact ⟨(congrArg (fun x => I.target x.1) hu).symm.trans (hI.2.2 _ _), rfl, rfl⟩
    · rename_i s sug hu
      have := (congrArg (fun x => I.target x.1) hu).symm.trans (hI.2.2 _ _)
      split <;> exact ⟨this, rfl, rfl⟩

theorem Reach.keeps [Fintype ι] {I : SolverI S ι} (hI : KeepsTarget I)
    {t₀ t : SubsetTuner S ι} (h : Reach I t₀ t)
    (h₀ : t₀.lastVariances.index = t₀.lastValues.index) :
    I.target t.solver = I.target t₀.solver ∧ t.lastValues.index = t₀.lastValues.index ∧
      t.lastVariances.index = t₀.lastValues.index := by
  induction h with
  | start => exact ⟨rfl, rfl, h₀⟩
  | evaluate outs v _ ih =>
    rename_i t _
    have := isTuned_keeps I hI outs v t (ih.2.2.trans ih.2.1.symm)
    have hv := lastValues_index_invariant I outs v t
    exact ⟨this.1.trans ih.1, hv.trans ih.2.1, this.2.trans (hv.trans ih.2.1)⟩
  | suggest tuned _ ih =>
    rename_i t _
    have := nextVoltages_keeps I hI tuned t
    exact ⟨this.1.trans ih.1, this.2.2 ▸ ih.2.1, this.2.1 ▸ ih.2.2⟩

theorem mem_rowsNotEmpty {T : Target} {l : String} (h : l ∈ rowsNotEmpty T) : l ∈ T.names := by
  simp only [rowsNotEmpty, Target.names, List.mem_map, List.mem_filter] at h ⊢
  obtain ⟨r, ⟨hr, -⟩, rfl⟩ := h
  exact ⟨r, hr, rfl⟩

theorem construct_ok {I : SolverI S ι} {a : Args S ι} {t : SubsetTuner S ι}
    (h : construct I a = .ok t) :
    t.solver = a.solver ∧ a.evaluatorParameters.Nodup ∧
    (rowsComplete (I.target a.solver)).all a.evaluatorParameters.contains = true ∧
    (a.lastValues = none → t.lastValues.index = (I.target a.solver).relevant) ∧
    (a.lastVariances = none → t.lastVariances.index = (I.target a.solver).relevant) := by
  unfold construct at h
  simp only at h
  repeat' split at h
  · cases h
  · cases h
  · cases h
  · cases h
  · rename_i h1 h2 h3 h4
    cases h
    refine ⟨rfl, not_not.1 h3, by simpa using h4, ?_, ?_⟩
    · intro hn; simp only [hn, Option.getD_none, Series.index_map_mk]
    · intro hn; simp only [hn, Option.getD_none, Series.index_map_mk]

/-! ## C25 -/

/-- **C25 for `SubsetTuner` (provable part).** If every column of the target is given for all
parameters or for none, a tuner that was built without stored values and then used in any
way is rebuilt from `to_hdf5()` as exactly the same object.
Missing: other targets, see `subset_reload_refuted`. -/
theorem subset_reload_partial [Fintype ι] (I : SolverI S ι) (hI : KeepsTarget I)
    (a : Args S ι) (ha : a.lastValues = none) (ha' : a.lastVariances = none)
    (hu : UniformColumns (I.target a.solver)) (t₀ t : SubsetTuner S ι)
    (h₀ : construct I a = .ok t₀) (h : Reach I t₀ t) :
    construct I (save a.evaluatorParameters t) = .ok t := by
  obtain ⟨hs, hnd, hcomp, hv, hvar⟩ := construct_ok h₀
  obtain ⟨k1, k2, k3⟩ := h.keeps hI ((hvar ha').trans (hv ha).symm)
  have hT : I.target t.solver = I.target a.solver := by rw [k1, hs]
  have e1 : t.lastValues.index = (I.target a.solver).names := by
    rw [k2, hv ha, relevant_of_uniform hu]
  have e2 : t.lastVariances.index = (I.target a.solver).names := by
    rw [k3, hv ha, relevant_of_uniform hu]
  unfold construct save
  simp only [Option.any_some, hT, e1, e2, Option.getD_some]
  rw [if_neg, if_neg, if_neg (not_not.2 hnd), if_neg]
  · simpa using hcomp
  · simp
  · simp only [Bool.not_eq_true, Bool.not_eq_false', List.all_eq_true, List.contains_iff_mem]
    exact fun l hl => mem_rowsNotEmpty hl

/-- **C25 is false for `SubsetTuner`**: let a parameter of the target have a rescaling factor
(which `make_target` always provides) and no entry in a column that is used for another
parameter.  Then no state of the tuner can be reloaded: the constructor fails with
`AssertionError`. -/
theorem subset_reload_impossible [Fintype ι] (I : SolverI S ι) (hI : KeepsTarget I)
    (a : Args S ι) (ha : a.lastValues = none) (ha' : a.lastVariances = none)
    (hn : (I.target a.solver).names.Nodup) (r r' : Row) (column : Row → Val)
    (hr : r ∈ I.target a.solver) (hr' : r' ∈ I.target a.solver)
    (hc : column ∈ Target.columns) (hmiss : column r = none) (hused : (column r').isSome)
    (hfac : r.rescaling.isSome) (t₀ t : SubsetTuner S ι)
    (h₀ : construct I a = .ok t₀) (h : Reach I t₀ t) :
    construct I (save a.evaluatorParameters t) = .error .assertionError := by
  obtain ⟨hs, hnd, hcomp, hv, hvar⟩ := construct_ok h₀
  obtain ⟨k1, k2, k3⟩ := h.keeps hI ((hvar ha').trans (hv ha).symm)
  have hT : I.target t.solver = I.target a.solver := by rw [k1, hs]
  have e1 : t.lastValues.index = (I.target a.solver).relevant := by rw [k2, hv ha]
  unfold construct save
  simp only [Option.any_some, hT, e1]
  rw [if_pos]
  simp only [Bool.not_eq_true', Bool.eq_false_iff, ne_eq, List.all_eq_true,
    List.contains_iff_mem, not_forall]
  refine ⟨r.name, ?_, ?_⟩
  · refine List.mem_map_of_mem (List.mem_filter.2 ⟨hr, ?_⟩)
    rw [List.any_eq_true]
    exact ⟨Row.rescaling, by simp [Target.columns], hfac⟩
  · intro hmem
    simp only [Target.relevant, Target.names, List.mem_map, List.mem_filter] at hmem
    obtain ⟨q, ⟨hq, hall⟩, hname⟩ := hmem
    have : q = r := by
      have h1 := Target.row?_of_mem hn hq
      have h2 := Target.row?_of_mem hn hr
      rw [hname, h2] at h1
      exact (Option.some.inj h1).symm
    subst this
    rw [List.all_eq_true] at hall
    have := hall column hc
    rw [hmiss] at this
    simp only [Option.isSome_none, Bool.or_false, List.all_eq_true] at this
    have := this r' hr'
    cases hx : column r' <;> simp [hx] at this hused

/-- Two parameters, one with a set point, one to be left invariant: as the documentation of
`make_target` recommends, its set point is NaN (solver.py:39). -/
noncomputable def invariantTarget : Target :=
  [⟨"a", some 0, none, none, some 1, none, some 1⟩,
   ⟨"b", none, none, none, none, none, some 1⟩]

/-- Arguments for a new tuner.  parameter_tuner.py:199-216. -/
noncomputable def newArgs : Args Unit (Fin 1) where
  evaluatorParameters := ["a", "b"]
  solver := ()
  tunedVoltages := none
  lastVoltage := fun _ => some 0
  lastValues := none
  lastVariances := none
  lastFailed := false
  evaluatable := none
  maxStep := none
  maxNumber := 1
  queued := 0

theorem constSolver_keepsTarget (T : Target) : KeepsTarget (constSolver T) :=
  ⟨fun _ _ => rfl, fun _ _ _ _ => rfl, fun _ _ => rfl⟩

/-- **C25 refuted on a concrete case**: a new tuner with a parameter that is to be left
invariant can be constructed but not reloaded. -/
theorem subset_reload_refuted :
    ∃ t₀, construct (constSolver invariantTarget) newArgs = .ok t₀ ∧
      construct (constSolver invariantTarget) (save ["a", "b"] t₀) = .error .assertionError := by
  have h₀ : ∃ t₀, construct (constSolver invariantTarget) newArgs = .ok t₀ := by
    unfold construct
    simp [newArgs, constSolver, invariantTarget, rowsComplete, Target.columns, Target.names]
  obtain ⟨t₀, h₀⟩ := h₀
  refine ⟨t₀, h₀, ?_⟩
  exact subset_reload_impossible (constSolver invariantTarget) (constSolver_keepsTarget _) newArgs
    rfl rfl (by simp [newArgs, constSolver, invariantTarget, Target.names])
    ⟨"b", none, none, none, none, none, some 1⟩ ⟨"a", some 0, none, none, some 1, none, some 1⟩
    Row.desired (by simp [constSolver, invariantTarget]) (by simp [constSolver, invariantTarget])
    (by simp [Target.columns]) rfl rfl rfl t₀ t₀ h₀ .start

/-- A target with uniformly filled columns: the tuner is constructed and can be reloaded
after an evaluation. -/
example : ∃ t₀, construct (constSolver goodTarget) newArgs = .ok t₀ ∧
    construct (constSolver goodTarget)
      (save ["a", "b"] (isTuned (constSolver goodTarget)
        [.ok ([("a", some 1)], [("a", some 1)])] (fun _ => some 3) t₀).1) =
      .ok (isTuned (constSolver goodTarget)
        [.ok ([("a", some 1)], [("a", some 1)])] (fun _ => some 3) t₀).1 := by
  have h₀ : ∃ t₀, construct (constSolver goodTarget) newArgs = .ok t₀ := by
    unfold construct
    simp [newArgs, constSolver, goodTarget, rowsComplete, Target.columns, Target.names]
  obtain ⟨t₀, h₀⟩ := h₀
  refine ⟨t₀, h₀, ?_⟩
  refine subset_reload_partial (constSolver goodTarget) (constSolver_keepsTarget _) newArgs
    rfl rfl ?_ t₀ _ h₀ (.evaluate _ _ .start)
  intro c hc
  simp only [Target.columns, List.mem_cons, List.not_mem_nil, or_false] at hc
  rcases hc with rfl | rfl | rfl | rfl | rfl | rfl <;> simp [constSolver, goodTarget]

end Qtune.Tuner
