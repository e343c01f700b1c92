import Verif.Tuner.Lemmas

/-! # Properties of `SubsetTuner` (C15–C21) -/

namespace Qtune.Tuner

variable {S ι : Type}

/-! ## C15 -/

/-- Every column of the target is either given for all parameters or for none. -/
def UniformColumns (T : Target) : Prop :=
  ∀ c ∈ Target.columns, (∀ r ∈ T, c r = none) ∨ (∀ r ∈ T, (c r).isSome)

/-- `measured outs r` is the value of parameter `r` measured by the evaluator calls `outs`,
divided by its rescaling factor. -/
def MeasuredAs (outs : List Outcome) (r : Row) (x : Val) : Prop :=
  ∃ p vars, collect outs = .ok (p, vars) ∧ x = Val.div (p.val r.name) r.rescaling

/-- **C15 (provable part), any target.** If `is_tuned` returns `True` then the evaluators were
called and did not raise; every parameter with set point and tolerance *that was measured*
differs from its set point by less than the tolerance; parameters listed in
`last_parameters_and_variances` were measured; and the voltages are recorded.
Missing: a parameter with set point and tolerance need not be listed there, see
`is_tuned_sound_refuted`. -/
theorem is_tuned_sound_partial (I : SolverI S ι) (outs : List Outcome) (v : Volt ι)
    (t t' : SubsetTuner S ι) (hn : (I.target t.solver).names.Nodup)
    (h : isTuned I outs v t = (t', .ok true)) :
    t.queued = 0 ∧ t'.tunedVoltages = t.tunedVoltages ++ [v] ∧
    ∀ r ∈ I.target t.solver, ∃ x, MeasuredAs outs r x ∧
      (∀ d tol y, r.desired = some d → r.tolerance = some tol → x = some y → |d - y| < tol) ∧
      (r.name ∈ t.lastValues.index → x.isSome) := by
  unfold isTuned at h
  simp only at h
  split at h
  · simp at h
  · rename_i hq
    refine ⟨by simpa using hq, ?_⟩
    split at h
    · simp at h
    · rename_i p vars hev
      split at h
      · simp at h
      · rename_i lv hlv
        split at h
        · simp at h
        · split at h
          · simp at h
          · rename_i hnan
            split at h
            · simp at h
            · split at h
              · rename_i hall
                simp only [Prod.mk.injEq] at h
                obtain ⟨rfl, -⟩ := h
                refine ⟨rfl, ?_⟩
                obtain ⟨p₀, v₀, hc, rfl, rfl⟩ := evaluate_ok hev
                intro r hr
                refine ⟨_, ⟨p₀, v₀, hc, rfl⟩, ?_, ?_⟩
                · intro d tol y hd ht hy
                  have := hall r hr
                  rw [val_rescaled hn hr, hy] at this
                  simpa [WithinTolerance, ht, hd, Val.abs] using this
                · intro hmem
                  have hlv' := Series.select_ok hlv
                  rw [Bool.not_eq_true] at hnan
                  rw [List.any_eq_false] at hnan
                  rw [hlv'] at hnan
                  have := hnan (r.name, _) (List.mem_map_of_mem hmem)
                  rw [val_rescaled hn hr] at this
                  simpa [Option.isSome_iff_ne_none] using this
              · simp at h

/-- The index of `last_parameters_and_variances` that the constructor chooses
(parameter_tuner.py:62-65) never changes. -/
theorem lastValues_index_invariant (I : SolverI S ι) (outs : List Outcome) (v : Volt ι)
    (t : SubsetTuner S ι) :
    (isTuned I outs v t).1.lastValues.index = t.lastValues.index := by
  unfold isTuned
  simp only
  split
  · rfl
  · split
    · rfl
    · split
      · rfl
      · rename_i lv hlv
        have hidx : Series.index lv = t.lastValues.index := by
          rw [Series.select_ok hlv, Series.index_map_mk]
        split
        · exact hidx
        · split
          · exact hidx
          · split
            · exact hidx
            · split <;> exact hidx

/-- With uniformly filled columns all parameters are relevant. -/
theorem relevant_of_uniform {T : Target} (h : UniformColumns T) : T.relevant = T.names := by
  unfold Target.relevant
  congr 1
  rw [List.filter_eq_self]
  intro r hr
  rw [List.all_eq_true]
  intro c hc
  rcases h c hc with h | h
  · rw [Bool.or_eq_true]; left
    rw [List.all_eq_true]; intro r' hr'; rw [h r' hr']; rfl
  · rw [Bool.or_eq_true]; right; exact h r hr

/-- **C15 for uniformly filled targets.** If every column of the target is given for all
parameters or for none, then soundness holds in full: `True` means that every parameter
with set point and tolerance was measured and lies within its tolerance. -/
theorem is_tuned_sound_uniform_partial (I : SolverI S ι) (outs : List Outcome) (v : Volt ι)
    (t t' : SubsetTuner S ι) (hn : (I.target t.solver).names.Nodup)
    (hidx : t.lastValues.index = (I.target t.solver).relevant)
    (hu : UniformColumns (I.target t.solver))
    (h : isTuned I outs v t = (t', .ok true)) :
    ∀ r ∈ I.target t.solver, ∀ d tol, r.desired = some d → r.tolerance = some tol →
      ∃ y, MeasuredAs outs r (some y) ∧ |d - y| < tol := by
  obtain ⟨-, -, hs⟩ := is_tuned_sound_partial I outs v t t' hn h
  intro r hr d tol hd ht
  obtain ⟨x, hm, h1, h2⟩ := hs r hr
  have hx := h2 (by rw [hidx, relevant_of_uniform hu]; exact Target.mem_names hr)
  obtain ⟨y, rfl⟩ := Option.isSome_iff_exists.1 hx
  exact ⟨y, hm, h1 d tol y hd ht rfl⟩

/-! ### A solver without state, for examples -/

/-- Solver with a fixed target which accepts everything and suggests nothing. -/
def constSolver (T : Target) : SolverI Unit (Fin 1) where
  target _ := T
  setPosition _ s := s
  update _ _ _ s := (s, .ok ())
  suggest _ s := (s, .ok fun _ => none)

/-- A tuner as the constructor makes it (parameter_tuner.py:32-95, 199-216). -/
noncomputable def newTuner (T : Target) : SubsetTuner Unit (Fin 1) where
  solver := ()
  tunedVoltages := []
  lastVoltage := fun _ => some 0
  lastValues := T.relevant.map fun l => (l, none)
  lastVariances := T.relevant.map fun l => (l, none)
  lastFailed := false
  evaluatable := []
  maxStep := none
  maxNumber := 1
  queued := 0

/-- Two parameters, both with set point 0 and tolerance 1; a minimum is given for `b` only. -/
noncomputable def badTarget : Target :=
  [⟨"a", some 0, none, none, some 1, none, some 1⟩,
   ⟨"b", some 0, some (-1), none, some 1, none, some 1⟩]

/-- Measurement: `a` failed (NaN), `b` is 0. -/
noncomputable def badOuts : List Outcome :=
  [.ok ([("a", none), ("b", some 0)], [("a", none), ("b", some 0)])]

/-- **C15 is false in general**: parameter `a` has a set point and a tolerance, its
measurement failed (NaN), and still `is_tuned` returns `True`, because another column of the
target is filled for `b` only. -/
theorem is_tuned_sound_refuted :
    (isTuned (constSolver badTarget) badOuts (fun _ => some 0) (newTuner badTarget)).2 = .ok true ∧
    (∃ r ∈ badTarget, r.desired = some 0 ∧ r.tolerance = some 1 ∧ MeasuredAs badOuts r none ∧
      ¬ ∃ y, MeasuredAs badOuts r (some y)) := by
  have hc : collect badOuts = .ok ([("a", none), ("b", some 0)], [("a", none), ("b", some 0)]) := by
    simp [badOuts, collect]
  constructor
  · have hrel : (newTuner badTarget).lastValues.index = ["b"] := by
      simp [newTuner, badTarget, Target.relevant, Target.columns, Target.names, Series.index]
    obtain ⟨t', h, -⟩ := is_tuned_true_of (constSolver badTarget) badOuts (fun _ => some 0)
      (newTuner badTarget) (by simp [constSolver, badTarget, Target.names]) rfl
      (by simp [constSolver, badTarget])
      (by rw [hrel]; simp [constSolver, badTarget, Target.names]) _ _ hc
      (by simp [constSolver, badTarget, List.lookup])
      (by simp [constSolver, badTarget, List.lookup])
      (by rw [hrel]; simp [constSolver, badTarget, Series.val, List.lookup, Val.div])
      (by
        simp [constSolver, badTarget, Series.val, List.lookup, Val.div, WithinTolerance, Val.abs])
      (fun _ _ => rfl)
    rw [h]
  · refine ⟨⟨"a", some 0, none, none, some 1, none, some 1⟩, by simp [badTarget], rfl, rfl, ?_, ?_⟩
    · exact ⟨_, _, hc, by simp [Series.val, List.lookup]⟩
    · rintro ⟨y, p, vars, h, hy⟩
      rw [hc] at h
      cases h
      simp [Series.val, List.lookup] at hy

/-! ## C16 -/

/-- **C16.** If no steps are queued, the evaluators do not raise and measure every parameter,
the solver accepts the result, and every parameter with a set point and a tolerance lies
strictly within it (tolerances are positive), then `is_tuned` returns `True` and records
the voltages. -/
theorem is_tuned_complete (I : SolverI S ι) (outs : List Outcome) (v : Volt ι)
    (t : SubsetTuner S ι) (hn : (I.target t.solver).names.Nodup) (hq : t.queued = 0)
    (hne : I.target t.solver ≠ [])
    (hidx : t.lastValues.index ⊆ (I.target t.solver).names)
    (p vars : Series) (hc : collect outs = .ok (p, vars))
    (hvars : ∀ r ∈ I.target t.solver, vars.lookup r.name ≠ none)
    (hmeas : ∀ r ∈ I.target t.solver, ∃ y, Val.div (p.val r.name) r.rescaling = some y ∧
      ∀ tol, r.tolerance = some tol → 0 < tol ∧ ∀ d, r.desired = some d → |d - y| < tol)
    (hupd : ∀ p' v', (I.update v p' v' t.solver).2 = .ok ()) :
    ∃ t', isTuned I outs v t = (t', .ok true) ∧ t'.tunedVoltages = t.tunedVoltages ++ [v] ∧
      t'.evaluatable = t.evaluatable ++ [v] ∧ t'.lastFailed = false := by
  refine is_tuned_true_of I outs v t hn hq hne hidx p vars hc hvars ?_ ?_ ?_ hupd
  · intro r hr hnone
    obtain ⟨y, hy, -⟩ := hmeas r hr
    simp [Series.val, hnone] at hy
  · intro r hr _
    obtain ⟨y, hy, -⟩ := hmeas r hr
    simp [hy]
  · intro r hr
    obtain ⟨y, hy, htol⟩ := hmeas r hr
    rw [hy]
    unfold WithinTolerance
    cases ht : r.tolerance with
    | none => trivial
    | some tol =>
      obtain ⟨hpos, hd⟩ := htol tol ht
      cases hdes : r.desired with
      | none => simpa [Val.abs] using hpos
      | some d => simpa [Val.abs] using hd d hdes

/-- One parameter with set point 0, tolerance 1 and rescaling factor 2, measured as 1. -/
noncomputable def goodTarget : Target := [⟨"a", some 0, none, none, some 1, none, some 2⟩]

example : (isTuned (constSolver goodTarget) [.ok ([("a", some 1)], [("a", some 1)])]
    (fun _ => some 0) (newTuner goodTarget)).2 = .ok true := by
  have hrel : (newTuner goodTarget).lastValues.index = ["a"] := by
    simp [newTuner, goodTarget, Target.relevant, Target.columns, Target.names, Series.index]
  obtain ⟨t', h, -⟩ := is_tuned_complete (constSolver goodTarget)
    [.ok ([("a", some 1)], [("a", some 1)])] (fun _ => some 0) (newTuner goodTarget)
    (by simp [constSolver, goodTarget, Target.names]) rfl
    (by simp [constSolver, goodTarget])
    (by rw [hrel]; simp [constSolver, goodTarget, Target.names])
    [("a", some 1)] [("a", some 1)] (by simp [collect])
    (by simp [constSolver, goodTarget, List.lookup])
    (by
      intro r hr
      simp [constSolver, goodTarget] at hr
      subst hr
      refine ⟨1 / 2, by simp [Series.val, List.lookup, Val.div], ?_⟩
      intro tol ht
      simp at ht
      subst ht
      refine ⟨by norm_num, ?_⟩
      intro d hd
      simp at hd
      subst hd
      norm_num [abs_lt])
    (fun _ _ => rfl)
  rw [h]

/-! ## C17 -/

/-- **C17.** If the evaluators do not raise and a relevant parameter (one listed in
`last_parameters_and_variances`) is NaN after rescaling, `is_tuned` – unless it raises
because none of the labels is known – returns `False`, marks the evaluation as failed, and
neither the solver (with all gradient estimators in it) nor the lists of evaluatable and
tuned voltages change. -/
theorem failed_evaluation_contained (I : SolverI S ι) (outs : List Outcome) (v : Volt ι)
    (t t' : SubsetTuner S ι) (res : Bool) (hn : (I.target t.solver).names.Nodup)
    (hq : t.queued = 0) (r : Row) (hr : r ∈ I.target t.solver)
    (hrel : r.name ∈ t.lastValues.index) (hnan : MeasuredAs outs r none)
    (h : isTuned I outs v t = (t', .ok res)) :
    res = false ∧ t'.lastFailed = true ∧ t'.solver = t.solver ∧
      t'.evaluatable = t.evaluatable ∧ t'.tunedVoltages = t.tunedVoltages ∧
      t'.lastVoltage = v ∧ t'.queued = 0 := by
  unfold isTuned at h
  simp only [hq, ne_eq, not_true_eq_false, if_false] at h
  split at h
  · simp at h
  · rename_i p vars hev
    split at h
    · simp at h
    · rename_i lv hlv
      split at h
      · simp at h
      · split at h
        · simp only [Prod.mk.injEq, Except.ok.injEq] at h
          obtain ⟨rfl, rfl⟩ := h
          exact ⟨rfl, rfl, rfl, rfl, rfl, rfl, rfl⟩
        · rename_i hno
          exfalso
          apply hno
          rw [List.any_eq_true]
          obtain ⟨p₀, v₀, hc, rfl, rfl⟩ := evaluate_ok hev
          obtain ⟨p₁, v₁, hc', hx⟩ := hnan
          rw [hc] at hc'
          cases hc'
          rw [Series.select_ok hlv]
          refine ⟨_, List.mem_map_of_mem hrel, ?_⟩
          simp only
          rw [val_rescaled hn hr, ← hx]
          rfl

example : (isTuned (constSolver goodTarget) [.ok ([("a", none)], [("a", none)])]
    (fun _ => some 5) (newTuner goodTarget)).2 = .ok false ∧
    MeasuredAs [.ok ([("a", none)], [("a", none)])]
      ⟨"a", some 0, none, none, some 1, none, some 2⟩ none := by
  have hrel : goodTarget.relevant = ["a"] := by
    simp [goodTarget, Target.relevant, Target.columns, Target.names]
  constructor
  · unfold isTuned
    simp only [newTuner, hrel]
    simp [evaluate, collect, constSolver, goodTarget, Target.names, Series.select, Series.index,
      Series.val, List.lookup, rescaleValues, rescaleVariances]
  · exact ⟨[("a", none)], [("a", none)], by simp [collect], by simp [Series.val, List.lookup]⟩

/-- The evaluation at voltages `v` failed: `is_tuned` returned normally, without steps
queued, and marked the evaluation as failed. -/
def FailedAt (I : SolverI S ι) (outs : List Outcome) (v : Volt ι)
    (t t' : SubsetTuner S ι) : Prop :=
  t.queued = 0 ∧ isTuned I outs v t = (t', .ok false) ∧ t'.lastFailed = true

/-- A failed evaluation leaves the list of evaluatable voltages alone and remembers where it
failed. -/
theorem FailedAt.keeps {I : SolverI S ι} {outs : List Outcome} {v : Volt ι}
    {t t' : SubsetTuner S ι} (h : FailedAt I outs v t t') :
    t'.evaluatable = t.evaluatable ∧ t'.lastVoltage = v := by
  obtain ⟨hq, h, hf⟩ := h
  unfold isTuned at h
  simp only [hq, ne_eq, not_true_eq_false, if_false] at h
  repeat' split at h
  all_goals simp only [Prod.mk.injEq, reduceCtorEq, and_false, and_true, Except.ok.injEq] at h
  all_goals subst h
  · exact ⟨rfl, rfl⟩
  · simp at hf

/-! ## C18 -/

/-- **C18 (a).** Let `g` be the last voltages at which the evaluation succeeded and let the
evaluation fail at `vs 0`, and again at each of the next points `vs 1, vs 2, …, vs n`, which
are the suggestions of the tuner.  Then for all `k ≤ n + 1` the point `vs k` lies on the
segment between `g` and `vs 0`, at `2^-k` of the distance, on every gate. -/
theorem recovery_bisects [Fintype ι] (I : SolverI S ι) (n : Nat)
    (ts ts' : Nat → SubsetTuner S ι) (vs : Nat → Volt ι) (outs : Nat → List Outcome)
    (tuned : Nat → List String) (g f : ι → ℝ)
    (hg : (ts 0).evaluatable.getLast? = some fun i => some (g i))
    (hf : vs 0 = fun i => some (f i))
    (hfail : ∀ k ≤ n, FailedAt I (outs k) (vs k) (ts k) (ts' k))
    (hnext : ∀ k ≤ n, nextVoltages I (tuned k) (ts' k) = (ts (k + 1), .ok (vs (k + 1)))) :
    ∀ k ≤ n + 1, vs k = fun i => some (g i + (f i - g i) / 2 ^ k) := by
  have key : ∀ k ≤ n + 1, (ts k).evaluatable = (ts 0).evaluatable ∧
      vs k = fun i => some (g i + (f i - g i) / 2 ^ k) := by
    intro k
    induction k with
    | zero => intro _; exact ⟨rfl, by rw [hf]; funext i; simp⟩
    | succ k ih =>
      intro hk
      obtain ⟨he, hv⟩ := ih (by omega)
      have hF := hfail k (by omega)
      obtain ⟨he', hl'⟩ := hF.keeps
      have hN := hnext k (by omega)
      unfold nextVoltages at hN
      rw [if_pos hF.2.2, he', he, hg] at hN
      simp only [Prod.mk.injEq, Except.ok.injEq] at hN
      obtain ⟨h1, h2⟩ := hN
      refine ⟨by rw [← h1, he', he], ?_⟩
      rw [← h2, hl', hv]
      funext i
      simp only [smul, vadd, Val.add_some, Val.mul_some, Option.some.injEq]
      rw [pow_succ]
      field_simp
      ring
  exact fun k hk => (key k hk).2

/-- **C18 (b).** Hence the tuner comes back arbitrarily close to the last good point: for
every `ε > 0` there is a number of failures after which every gate is within `ε`. -/
theorem recovery_converges [Fintype ι] (g f : ι → ℝ) (ε : ℝ) (hε : 0 < ε) :
    ∃ K : Nat, ∀ k ≥ K, ∀ i, |(g i + (f i - g i) / 2 ^ k) - g i| < ε := by
  have hb : ∃ B : ℝ, 0 < B ∧ ∀ i, |f i - g i| ≤ B := by
    refine ⟨(∑ i, |f i - g i|) + 1, by positivity, ?_⟩
    intro i
    have := Finset.single_le_sum (f := fun i => |f i - g i|) (fun j _ => abs_nonneg _)
      (Finset.mem_univ i)
    linarith
  obtain ⟨B, hB, hB'⟩ := hb
  obtain ⟨K, hK⟩ := exists_nat_gt (B / ε)
  refine ⟨K, fun k hk i => ?_⟩
  rw [add_sub_cancel_left, abs_div, abs_of_pos (by positivity : (0 : ℝ) < 2 ^ k),
    div_lt_iff₀ (by positivity)]
  have h2 : (k : ℝ) < 2 ^ k := by exact_mod_cast Nat.lt_two_pow_self
  have h3 : B < ε * K := by
    rw [div_lt_iff₀ hε] at hK; linarith
  have h4 : (K : ℝ) ≤ k := by exact_mod_cast hk
  have := hB' i
  nlinarith

/-- **C18 (c).** Without any earlier good point `get_next_voltages` raises `IndexError` after a
failed evaluation and changes nothing. -/
theorem recovery_without_good_point [Fintype ι] (I : SolverI S ι) (tuned : List String)
    (t : SubsetTuner S ι) (hf : t.lastFailed = true) (he : t.evaluatable = []) :
    nextVoltages I tuned t = (t, .error .indexError) := by
  simp [nextVoltages, hf, he]

/-- A state in which the evaluation has failed at 4 V after a success at 0 V; the suggestion
is 2 V. -/
example : (nextVoltages (constSolver goodTarget) []
    { newTuner goodTarget with
      lastFailed := true, evaluatable := [fun _ => some 0], lastVoltage := fun _ => some 4 }).2
    = .ok (fun _ => some 2) := by
  simp only [nextVoltages, if_true, List.getLast?_singleton]
  simp only [Except.ok.injEq]
  funext i
  simp [smul, vadd]
  norm_num

end Qtune.Tuner
