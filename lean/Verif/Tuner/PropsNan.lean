import Verif.Tuner.Props

/-! # C15: which failed measurements go unnoticed -/

namespace Qtune.Tuner

variable {S ι : Type}

/-- The row has no entry in a column of the target that has an entry in another row. -/
def MissesColumn (T : Target) (r : Row) : Prop := ∃ c ∈ Target.columns, c r = none ∧ ∃ r' ∈ T, (c r').isSome

theorem not_relevant {T : Target} (hn : T.names.Nodup) {r : Row} (hr : r ∈ T) (h : MissesColumn T r) : r.name ∉ T.relevant := by
  intro hm
  obtain ⟨c, hc, hnone, r', hr', hsome⟩ := h
  unfold Target.relevant Target.names at hm
  obtain ⟨q, hq, hqn⟩ := List.mem_map.1 hm
  obtain ⟨hqT, hall⟩ := List.mem_filter.1 hq
  have hqr : q = r := by
    have h1 := Target.row?_of_mem hn hqT
    have h2 := Target.row?_of_mem hn hr
    rw [hqn, h2] at h1
    exact (Option.some.inj h1).symm
  subst hqr
  have := List.all_eq_true.1 hall c hc
  rw [hnone] at this
  simp only [Option.isSome_none, Bool.or_false, List.all_eq_true] at this
  have := this r' hr'
  rw [Option.isNone_iff_eq_none] at this
  rw [this] at hsome
  cases hsome

/-- **C15 is false for every such target**: if a parameter misses a column of the target that is used for another one, then the failure of its measurement is never noticed.
With a tuner as the constructor makes it, `is_tuned` returns `True` as soon as all other parameters are within their tolerances, whatever the set point and the
tolerance of the parameters that were not measured are. -/
theorem unnoticed_failure_refuted (I : SolverI S ι) (outs : List Outcome) (v : Volt ι) (t : SubsetTuner S ι) (hn : (I.target t.solver).names.Nodup) (hq : t.queued = 0)
    (hidx : t.lastValues.index = (I.target t.solver).relevant) (p vars : Series) (hc : collect outs = .ok (p, vars))
    (hlab : ∀ r ∈ I.target t.solver, p.lookup r.name ≠ none ∧ vars.lookup r.name ≠ none)
    (htol : ∀ r ∈ I.target t.solver, ∀ tol, r.tolerance = some tol → 0 < tol)
    (h : ∀ r ∈ I.target t.solver, (MissesColumn (I.target t.solver) r ∧ p.val r.name = none) ∨
      ∃ y, Val.div (p.val r.name) r.rescaling = some y ∧ ∀ tol d, r.tolerance = some tol → r.desired = some d → |d - y| < tol)
    (r₀ : Row) (hr₀ : r₀ ∈ I.target t.solver) (hnan : p.val r₀.name = none)
    (hupd : ∀ p' v', (I.update v p' v' t.solver).2 = .ok ()) :
    MeasuredAs outs r₀ none ∧ (isTuned I outs v t).2 = .ok true := by
  refine ⟨⟨p, vars, hc, by rw [hnan]; simp⟩, ?_⟩
  obtain ⟨t', ht', -⟩ := is_tuned_true_of I outs v t hn hq (List.ne_nil_of_mem hr₀) (by
      rw [hidx]
      intro l hl
      unfold Target.relevant Target.names at hl
      obtain ⟨q, hq, rfl⟩ := List.mem_map.1 hl
      exact Target.mem_names (List.mem_filter.1 hq).1) p vars hc (fun r hr => (hlab r hr).2) (fun r hr => (hlab r hr).1)
    (by
      intro r hr hm
      rcases h r hr with ⟨hmiss, -⟩ | ⟨y, hy, -⟩
      · rw [hidx] at hm
        exact absurd hm (not_relevant hn hr hmiss)
      · rw [hy]; rfl)
    (by
      intro r hr
      unfold WithinTolerance
      cases ht : r.tolerance with
      | none => trivial
      | some tol =>
        have hpos := htol r hr tol ht
        rcases h r hr with ⟨-, hv⟩ | ⟨y, hy, hd⟩
        · rw [hv]
          simpa [Val.abs] using hpos
        · rw [hy]
          cases hdes : r.desired with
          | none => simpa [Val.abs] using hpos
          | some d => simpa [Val.abs] using hd tol d ht hdes) hupd
  rw [ht']

/-- The target and the measurement of `is_tuned_sound_refuted`. -/
example : (isTuned (constSolver badTarget) badOuts (fun _ => some 0) (newTuner badTarget)).2 = .ok true := by
  refine (unnoticed_failure_refuted (constSolver badTarget) badOuts (fun _ => some 0) (newTuner badTarget) (by simp [constSolver, badTarget, Target.names]) rfl
    (by simp [newTuner, Series.index, constSolver, Function.comp_def]) [("a", none), ("b", some 0)] [("a", none), ("b", some 0)] (by simp [badOuts, collect])
    ?_ ?_ ?_ ⟨"a", some 0, none, none, some 1, none, some 1⟩ (by simp [constSolver, badTarget]) (by simp [Series.val, List.lookup]) fun _ _ => rfl).2
  · intro r hr
    simp only [constSolver, badTarget, List.mem_cons, List.not_mem_nil, or_false] at hr
    rcases hr with rfl | rfl <;> simp [List.lookup]
  · intro r hr tol ht
    simp only [constSolver, badTarget, List.mem_cons, List.not_mem_nil, or_false] at hr
    rcases hr with rfl | rfl <;> (simp only [Option.some.injEq] at ht; subst ht; norm_num)
  · intro r hr
    simp only [constSolver, badTarget, List.mem_cons, List.not_mem_nil, or_false] at hr
    rcases hr with rfl | rfl
    · exact .inl ⟨⟨fun r => r.minimum, by simp [Target.columns], rfl, ⟨"b", some 0, some (-1), none, some 1, none, some 1⟩, by simp [constSolver, badTarget], rfl⟩,
        by simp [Series.val, List.lookup]⟩
    · refine .inr ⟨0, by simp [Series.val, List.lookup, Val.div], ?_⟩
      intro tol d ht hd
      simp only [Option.some.injEq] at ht hd
      subst ht hd
      norm_num

end Qtune.Tuner
