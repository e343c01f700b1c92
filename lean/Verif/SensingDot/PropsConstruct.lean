import Verif.SensingDot.ConstructModel
import Verif.Tuner.PropsConstruct

/-! # C205: what a sensing dot tuner has to measure -/

namespace Qtune.SensingDot

open _root_.Qtune.Tuner

variable {S ι : Type}

/-! ### Specification -/

/-- The cheap evaluators return values and variances of their own parameters: all of them numbers, none of them at or below its minimum. -/
structure Good (T : Target) (parameters : List String) (outs : List Outcome) : Prop where
  some_evaluator : outs ≠ []
  values : ∃ p v, collect outs = .ok (p, v) ∧ (∀ l ∈ p.index, l ∈ parameters ∧ l ∈ v.index) ∧ NoneNaN T p ∧
    ¬ SomeAtOrBelow T Row.minimum p

/-- Evaluations one after the other, with their answers. -/
noncomputable def evaluations (I : SolverI S ι) (t : SDTuner S ι) :
    List (List Outcome × List Outcome × Volt ι) → SDTuner S ι × List (Except PyErr Bool)
  | [] => (t, [])
  | (cheap, exp, v) :: l =>
    ((evaluations I (isTuned I cheap exp v t).1 l).1, (isTuned I cheap exp v t).2.2 :: (evaluations I (isTuned I cheap exp v t).1 l).2)

/-! ### Lemmas -/

theorem mem_knownNames {cheap expensive : List String} {l : String} :
    l ∈ knownNames cheap expensive ↔ l ∈ cheap ∨ l ∈ expensive := by
  simp [knownNames, List.mem_mergeSort]

/-- **C205**, what is checked: a new sensing dot tuner is accepted exactly if every parameter of the target is known to an evaluator, cheap or
expensive, no parameter belongs to two cheap evaluators, and every parameter for which all six columns of the target have an entry is measured
cheaply.  Missing: the other parameters with a minimum, see `expensive_only_refuted`. -/
theorem sensing_dot_construct_iff_partial (I : SolverI S ι) (cheap expensive : List String) (s : S) (v : Volt ι) :
    (∃ t, construct I cheap expensive s v = .ok t) ↔
      (∀ r ∈ I.target s, r.name ∈ cheap ∨ r.name ∈ expensive) ∧ cheap.Nodup ∧
      ∀ r ∈ I.target s, Row.Complete r → r.name ∈ cheap := by
  have h1 : (!(rowsNotEmpty (I.target s)).all
      (Series.index ((knownNames cheap expensive).map fun l => (l, none))).contains) = true →
      ¬ ∀ r ∈ I.target s, r.name ∈ cheap ∨ r.name ∈ expensive := by
    simp only [Series.index_map_mk, Bool.not_eq_true', Bool.eq_false_iff, ne_eq, List.all_eq_true, List.contains_iff_mem, mem_knownNames,
      mem_rowsNotEmpty_iff]
    intro h h'
    refine h ?_
    rintro l ⟨r, hr, -, rfl⟩
    exact h' r hr
  have h2 : (!(I.target s).names.all (Series.index ((knownNames cheap expensive).map fun l => (l, none))).contains) = true ↔
      ¬ ∀ r ∈ I.target s, r.name ∈ cheap ∨ r.name ∈ expensive := by
    simp only [Series.index_map_mk, Bool.not_eq_true', Bool.eq_false_iff, ne_eq, List.all_eq_true, List.contains_iff_mem, mem_knownNames,
      Target.names, List.mem_map, forall_exists_index, and_imp, forall_apply_eq_imp_iff₂]
  have h4 : (!(rowsComplete (I.target s)).all cheap.contains) = true ↔
      ¬ ∀ r ∈ I.target s, Row.Complete r → r.name ∈ cheap := by
    simp only [Bool.not_eq_true', Bool.eq_false_iff, ne_eq, List.all_eq_true, List.contains_iff_mem, mem_rowsComplete]
    refine not_congr ⟨fun h r hr hu => h _ ⟨r, hr, hu, rfl⟩, ?_⟩
    rintro h l ⟨r, hr, hu, rfl⟩
    exact h r hr hu
  unfold construct
  simp only
  split
  · rename_i h
    exact ⟨fun ⟨_, h'⟩ => (nomatch h'), fun h' => absurd h'.1 (h1 h)⟩
  · split
    · rename_i h
      exact ⟨fun ⟨_, h'⟩ => (nomatch h'), fun h' => absurd h'.1 (h2.1 h)⟩
    · split
      · rename_i h
        exact ⟨fun ⟨_, h'⟩ => (nomatch h'), fun h' => absurd h'.2.1 h⟩
      · split
        · rename_i h
          exact ⟨fun ⟨_, h'⟩ => (nomatch h'), fun h' => absurd h'.2.2 (h4.1 h)⟩
        · rename_i a1 a2 a3 a4
          exact ⟨fun _ => ⟨not_not.1 (mt h2.2 a2), not_not.1 a3, not_not.1 (mt h4.2 a4)⟩, fun _ => ⟨_, rfl⟩⟩

theorem construct_new {I : SolverI S ι} {cheap expensive : List String} {s : S} {v : Volt ι} {t : SDTuner S ι}
    (h : construct I cheap expensive s v = .ok t) : t.solver = s ∧ t.tunedVoltages = [] ∧
      t.lastValues = (knownNames cheap expensive).map (fun l => (l, none)) ∧
      t.lastVariances = (knownNames cheap expensive).map (fun l => (l, none)) := by
  unfold construct at h
  simp only at h
  repeat' split at h
  all_goals first
    | cases h; done
    | (cases h; exact ⟨rfl, rfl, rfl, rfl⟩)

/-- **C205** if all parameters with a minimum are measured cheaply: when `is_tuned` answers `True`, each of them was measured above its minimum. -/
theorem minimum_checked_partial (I : SolverI S ι) (cheap exp : List Outcome) (v : Volt ι) (t : SDTuner S ι) (p vars : Series)
    (hd : Delivers cheap t p vars) (hT : ∀ r ∈ I.target t.solver, r.minimum ≠ none → r.name ∈ p.index) (hn : (I.target t.solver).names.Nodup)
    (h : (isTuned I cheap exp v t).2.2 = .ok true) (r : Row) (hr : r ∈ I.target t.solver) (m : ℝ) (hm : r.minimum = some m) :
    ∃ y, Measured (I.target t.solver) p r.name (some y) ∧ m < y := by
  obtain ⟨h1, h2⟩ := (sensing_dot_decision I cheap exp v t p vars hd).1.1 h
  obtain ⟨⟨l, x⟩, hx, hl⟩ := List.mem_map.1 (hT r hr (by rw [hm]; simp))
  dsimp only at hl
  subst hl
  have hM : Measured (I.target t.solver) p r.name (Val.div x (factor (I.target t.solver) r.name)) := ⟨x, hx, rfl⟩
  rcases hy : Val.div x (factor (I.target t.solver) r.name) with _ | y
  · rw [hy] at hM
    exact absurd hM (h1 _)
  · rw [hy] at hM
    refine ⟨y, hM, ?_⟩
    by_contra hle
    exact h2 ⟨r.name, y, r, m, hM, Target.row?_of_mem hn hr, hm, not_lt.1 hle⟩

/-- **C205** is false for a parameter `l` that only an expensive evaluator measures, as soon as a column of the target is not used: the tuner is accepted, and as long as
the cheap evaluators return good values, every evaluation answers `True`, although `l` has a minimum and has never been measured. -/
theorem expensive_only_refuted (I : SolverI S ι) (cheap expensive : List String) (s : S) (v₀ : Volt ι) (hn : cheap.Nodup)
    (hk : ∀ r ∈ I.target s, r.name ∈ cheap ∨ r.name ∈ expensive) (column : Row → Val) (hc : column ∈ Target.columns)
    (hT : ∀ r ∈ I.target s, column r = none) (l : String) (hl : l ∉ cheap)
    (runs : List (List Outcome × List Outcome × Volt ι)) (hr : ∀ c ∈ runs, Good (I.target s) cheap c.1) :
    ∃ t, construct I cheap expensive s v₀ = .ok t ∧ (evaluations I t runs).2 = runs.map (fun _ => .ok true) ∧
      (evaluations I t runs).1.tunedVoltages = runs.map (fun c => c.2.2) ∧ (evaluations I t runs).1.lastValues.val l = none := by
  obtain ⟨t, ht⟩ : ∃ t, construct I cheap expensive s v₀ = .ok t := by
    refine (sensing_dot_construct_iff_partial I cheap expensive s v₀).2 ⟨hk, hn, fun r hr h => ?_⟩
    have := hT r hr
    obtain ⟨h1, h2, h3, h4, h5, h6⟩ := h
    simp only [Target.columns, List.mem_cons, List.not_mem_nil, or_false] at hc
    rcases hc with rfl | rfl | rfl | rfl | rfl | rfl <;> contradiction
  refine ⟨t, ht, ?_⟩
  obtain ⟨e1, e2, e3, e4⟩ := construct_new ht
  have key : ∀ (runs : List (List Outcome × List Outcome × Volt ι)) (t : SDTuner S ι), t.solver = s →
      t.lastValues.index = knownNames cheap expensive → t.lastVariances.index = knownNames cheap expensive →
      t.lastValues.val l = none → (∀ c ∈ runs, Good (I.target s) cheap c.1) →
      (evaluations I t runs).2 = runs.map (fun _ => .ok true) ∧
      (evaluations I t runs).1.tunedVoltages = t.tunedVoltages ++ runs.map (fun c => c.2.2) ∧
      (evaluations I t runs).1.lastValues.val l = none := by
    intro runs
    induction runs with
    | nil => intro t _ _ _ h _; exact ⟨rfl, by simp [evaluations], h⟩
    | cons c runs ih =>
      intro t g1 g2 g3 g4 hg
      obtain ⟨ch, ex, v⟩ := c
      have hgc := hg (ch, ex, v) (by simp)
      obtain ⟨p, vars, hcol, hidx, hnan, hmin⟩ := hgc.values
      have hd : Delivers ch t p vars := ⟨hgc.some_evaluator, hcol, fun m hm => by
        rw [g2, g3]
        exact ⟨mem_knownNames.2 (.inl (hidx m hm).1), mem_knownNames.2 (.inl (hidx m hm).1)⟩, fun m hm => (hidx m hm).2⟩
      obtain ⟨lv, hlv, hli⟩ := assign_ok (s := t.lastValues)
        (p := rescaleValues (I.target t.solver) (sortIndex p))
        (fun l hl => (hd.known l (mem_index_rescale.1 hl)).1)
      obtain ⟨lvar, hlvar, hlvi⟩ := assignVariances_ok (s := t.lastVariances)
        (p := rescaleValues (I.target t.solver) (sortIndex p))
        (v := rescaleVariances (I.target t.solver) (sortIndex vars))
        (fun l hl => (hd.known l (mem_index_rescale.1 hl)).2)
        (fun l hl => mem_index_rescaleVar.2 (hd.has_variance l (mem_index_rescale.1 hl)))
      have hstep : isTuned I ch ex v t = ({ t with lastVoltage := v, lastValues := lv, lastVariances := lvar, lastFailed := false, cheapOnly := true, tunedVoltages := t.tunedVoltages ++ [v] }, [.cheap], .ok true) := by
        unfold isTuned
        rw [evaluate_eq hd]
        simp only [hlv, hlvar]
        rw [if_neg (by rw [anyNaN_iff, g1]; simpa using hnan), if_neg (by rw [anyLe_iff, g1]; exact hmin)]
      have hval : lv.val l = none := by
        have hnot : l ∉ (rescaleValues (I.target t.solver) (sortIndex p)).index :=
          fun h => hl (hidx l (mem_index_rescale.1 h)).1
        unfold assign at hlv
        split at hlv
        · cases hlv
          have : ∀ q : Series, q.val l = none →
              Series.val (q.map fun e => (e.1, if (rescaleValues (I.target t.solver) (sortIndex p)).index.contains e.1 then
                (rescaleValues (I.target t.solver) (sortIndex p)).val e.1 else e.2)) l = none := by
            intro q
            induction q with
            | nil => intro _; rfl
            | cons e q ihq =>
              obtain ⟨m, x⟩ := e
              intro hq
              by_cases hle : l = m
              · subst hle
                have hx : x = none := by simpa [Series.val] using hq
                have hcf : (rescaleValues (I.target t.solver) (sortIndex p)).index.contains l = false := by
                  rw [Bool.eq_false_iff]
                  intro h
                  exact hnot (List.contains_iff_mem.1 h)
                rw [List.map_cons]
                simp only [hcf, hx]
                simp [Series.val]
              · have hb : (l == m) = false := beq_eq_false_iff_ne.2 hle
                have hq' : Series.val q l = none := by simpa [Series.val, List.lookup_cons, hb] using hq
                have := ihq hq'
                rw [List.map_cons]
                simpa only [Series.val, List.lookup_cons, hb] using this
          exact this _ g4
        · cases hlv
      obtain ⟨k1, k2, k3⟩ := ih { t with lastVoltage := v, lastValues := lv, lastVariances := lvar, lastFailed := false, cheapOnly := true, tunedVoltages := t.tunedVoltages ++ [v] } g1 (hli.trans g2) (hlvi.trans g3) hval
          (fun c hc => hg c (by simp [hc]))
      simp only [evaluations, hstep]
      exact ⟨by rw [k1]; rfl, by rw [k2]; simp, k3⟩
  obtain ⟨k1, k2, k3⟩ := key runs t e1 (by rw [e3, Series.index_map_mk]) (by rw [e4, Series.index_map_mk])
    (by rw [e3, Series.val_map_mk]; split <;> rfl) hr
  exact ⟨k1, by rw [k2, e2]; rfl, k3⟩

/-! ### Examples -/

/-- The contrast is measured cheaply, the position `x` of the dot only by the expensive evaluator; both have a minimum. -/
noncomputable def twoMinima : Target := [⟨"c", none, some 2, none, none, some 1, some 1⟩, ⟨"x", none, some 5, none, none, none, some 1⟩]

example : (∀ r ∈ twoMinima, r.name ∈ ["c"] ∨ r.name ∈ ["x"]) ∧ (∀ r ∈ twoMinima, r.desired = none) ∧
    Good twoMinima ["c"] (one "c" (some 3)) := by
  have hrow : Target.row? twoMinima "c" = some ⟨"c", none, some 2, none, none, some 1, some 1⟩ := by simp [twoMinima, Target.row?]
  have hm : ∀ l y, Measured twoMinima [("c", some 3)] l y → l = "c" ∧ y = some 3 := by
    rintro l y ⟨z, hz, rfl⟩
    simp only [List.mem_singleton, Prod.mk.injEq] at hz
    obtain ⟨rfl, rfl⟩ := hz
    exact ⟨rfl, by simp [factor, hrow, Val.div]⟩
  refine ⟨by simp [twoMinima], by simp [twoMinima], by simp [one], _, _, rfl, by simp [Series.index], ?_, ?_⟩
  · intro l h
    simpa using (hm l none h).2
  · rintro ⟨l, y, r, m, h, hr, hmin, hle⟩
    obtain ⟨rfl, hy⟩ := hm l _ h
    rw [hrow] at hr
    cases hr
    cases hmin
    cases hy
    norm_num at hle

end Qtune.SensingDot
