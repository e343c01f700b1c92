import Verif.Tuner.RecordSpec
import Verif.Tuner.Props
import Mathlib.Tactic.Ring

/-! # C203: the voltages that a tuner has recorded -/

namespace Qtune.Tuner.Record

open Qtune.Tuner

variable {S ι : Type}

theorem isTunedRef_deref (I : SolverI S ι) (outs : List Outcome) (h : Nat → Volt ι) (r : Nat) (t : RefTuner S ι) :
    (isTunedRef I outs h r t).1.deref h = (isTuned I outs (h r) (t.deref h)).1 ∧
      (isTunedRef I outs h r t).2 = (isTuned I outs (h r) (t.deref h)).2 := by
  obtain ⟨⟨solver, tv, lv₀, lvals, lvars, lf, ev, ms, mn, q⟩, last, evaluatable, tuned⟩ := t
  change _ = (isTuned I outs (h r) ⟨solver, tuned.map h, h last, lvals, lvars, lf, evaluatable.map h, ms, mn, q⟩).1 ∧
    _ = (isTuned I outs (h r) ⟨solver, tuned.map h, h last, lvals, lvars, lf, evaluatable.map h, ms, mn, q⟩).2
  unfold isTunedRef isTuned
  simp only
  by_cases hq : q ≠ 0
  · rw [if_pos hq, if_pos hq]
    exact ⟨rfl, rfl⟩
  rw [if_neg hq, if_neg hq]
  rcases evaluate (I.target solver) outs with e | ⟨p, vars⟩
  · exact ⟨rfl, rfl⟩
  simp only
  rcases (rescaleValues (I.target solver) p).select lvals.index with e | lv
  · exact ⟨rfl, rfl⟩
  simp only
  rcases (rescaleVariances (I.target solver) vars).select lv.index with e | lvar
  · exact ⟨rfl, rfl⟩
  simp only
  by_cases hn : lv.any (fun e => e.2.isNone) = true
  · rw [if_pos hn, if_pos hn]
    exact ⟨rfl, rfl⟩
  rw [if_neg hn, if_neg hn]
  rcases I.update (h r) (rescaleValues (I.target solver) p) (rescaleVariances (I.target solver) vars)
    solver with ⟨s, e | ⟨⟨⟩⟩⟩
  · simp [RefTuner.deref]
  simp only
  by_cases hw : ∀ q ∈ I.target solver, WithinTolerance q ((rescaleValues (I.target solver) p).val q.name)
  · rw [if_pos hw, if_pos hw]
    simp [RefTuner.deref]
  · rw [if_neg hw, if_neg hw]
    simp [RefTuner.deref]

theorem isTunedRef_refs (I : SolverI S ι) (outs : List Outcome) (h : Nat → Volt ι) (r : Nat) (t : RefTuner S ι) :
    (isTunedRef I outs h r t).1.last = r ∧
      ((isTunedRef I outs h r t).1.evaluatable = t.evaluatable ∨
        (isTunedRef I outs h r t).1.evaluatable = t.evaluatable ++ [r]) ∧
      ((isTunedRef I outs h r t).1.tuned = t.tuned ∨ (isTunedRef I outs h r t).1.tuned = t.tuned ++ [r]) := by
  unfold isTunedRef
  simp only
  split
  · simp
  split
  · simp
  split
  · simp
  split
  · simp
  split
  · simp
  split
  · simp
  split <;> simp

theorem deref_congr {h h' : Nat → Volt ι} {t : RefTuner S ι} (hl : h' t.last = h t.last)
    (he : ∀ r ∈ t.evaluatable, h' r = h r) (ht : ∀ r ∈ t.tuned, h' r = h r) : t.deref h' = t.deref h := by
  unfold RefTuner.deref
  rw [hl, List.map_congr_left he, List.map_congr_left ht]

theorem nextVoltages_lists [Fintype ι] (I : SolverI S ι) (params : List String) (t : SubsetTuner S ι) :
    (nextVoltages I params t).1.lastVoltage = t.lastVoltage ∧ (nextVoltages I params t).1.evaluatable = t.evaluatable ∧
      (nextVoltages I params t).1.tunedVoltages = t.tunedVoltages := by
  unfold nextVoltages
  split
  · split <;> exact ⟨rfl, rfl, rfl⟩
  · split
    · exact ⟨rfl, rfl, rfl⟩
    · simp only
      split <;> exact ⟨rfl, rfl, rfl⟩

theorem step_copy [Fintype ι] (I : SolverI S ι) (w : World ι) (t : RefTuner S ι) (ha : Apart w t) (op : Op S ι) :
    Apart (step I .copy w t op).1 (step I .copy w t op).2.1 ∧
      (step I .copy w t op).1.heap (step I .copy w t op).1.own = moved (w.heap w.own) op ∧
      (step I .copy w t op).2.1.deref (step I .copy w t op).1.heap = (plainStep I (w.heap w.own) (t.deref w.heap) op).1 ∧
      (step I .copy w t op).2.2 = (plainStep I (w.heap w.own) (t.deref w.heap) op).2 := by
  have hlt : ∀ {r}, r < w.next ∧ r ≠ w.own → r ≠ w.next := fun h => by omega
  cases op with
  | evaluate outs =>
    obtain ⟨h1, h2⟩ := isTunedRef_deref I outs (Function.update w.heap w.next (w.heap w.own)) w.next t
    obtain ⟨r1, r2, r3⟩ := isTunedRef_refs I outs (Function.update w.heap w.next (w.heap w.own)) w.next t
    have hd : t.deref (Function.update w.heap w.next (w.heap w.own)) = t.deref w.heap :=
      deref_congr (by simp [hlt ha.last]) (fun r hr => by simp [hlt (ha.evaluatable r hr)])
        (fun r hr => by simp [hlt (ha.tuned r hr)])
    rw [hd, Function.update_self] at h1 h2
    have hown := ha.own
    refine ⟨⟨?_, ?_, ?_, ?_⟩, ?_, h1, ?_⟩
    · change w.own < w.next + 1
      omega
    · change (isTunedRef I outs (Function.update w.heap w.next (w.heap w.own)) w.next t).1.last < w.next + 1 ∧
        (isTunedRef I outs (Function.update w.heap w.next (w.heap w.own)) w.next t).1.last ≠ w.own
      rw [r1]
      omega
    · intro r hr
      change r < w.next + 1 ∧ r ≠ w.own
      change r ∈ (isTunedRef I outs (Function.update w.heap w.next (w.heap w.own)) w.next t).1.evaluatable at hr
      rcases r2 with e | e <;> rw [e] at hr
      · have := ha.evaluatable r hr
        omega
      · rw [List.mem_append, List.mem_singleton] at hr
        rcases hr with hr | hr
        · have := ha.evaluatable r hr
          omega
        · omega
    · intro r hr
      change r < w.next + 1 ∧ r ≠ w.own
      change r ∈ (isTunedRef I outs (Function.update w.heap w.next (w.heap w.own)) w.next t).1.tuned at hr
      rcases r3 with e | e <;> rw [e] at hr
      · have := ha.tuned r hr
        omega
      · rw [List.mem_append, List.mem_singleton] at hr
        rcases hr with hr | hr
        · have := ha.tuned r hr
          omega
        · omega
    · change Function.update w.heap w.next (w.heap w.own) w.own = w.heap w.own
      rw [Function.update_of_ne (by omega)]
    · change Res.answer (isTunedRef I outs (Function.update w.heap w.next (w.heap w.own)) w.next t).2 = _
      rw [h2]
      rfl
  | suggest params =>
    refine ⟨⟨ha.own, ha.last, ha.evaluatable, ha.tuned⟩, rfl, ?_, rfl⟩
    obtain ⟨h1, h2, h3⟩ := nextVoltages_lists I params (t.deref w.heap)
    change ({ (nextVoltages I params (t.deref w.heap)).1 with
      lastVoltage := w.heap t.last, evaluatable := t.evaluatable.map w.heap,
      tunedVoltages := t.tuned.map w.heap } : SubsetTuner S ι) = (nextVoltages I params (t.deref w.heap)).1
    have e1 : w.heap t.last = (nextVoltages I params (t.deref w.heap)).1.lastVoltage := h1.symm
    have e2 : t.evaluatable.map w.heap = (nextVoltages I params (t.deref w.heap)).1.evaluatable := h2.symm
    have e3 : t.tuned.map w.heap = (nextVoltages I params (t.deref w.heap)).1.tunedVoltages := h3.symm
    rw [e1, e2, e3]
  | set v =>
    refine ⟨⟨ha.own, ha.last, ha.evaluatable, ha.tuned⟩, by simp [step, set, moved], ?_, rfl⟩
    exact deref_congr (Function.update_of_ne ha.last.2 _ _)
      (fun r hr => Function.update_of_ne (ha.evaluatable r hr).2 _ _)
      (fun r hr => Function.update_of_ne (ha.tuned r hr).2 _ _)
  | restart f => exact ⟨⟨ha.own, ha.last, ha.evaluatable, ha.tuned⟩, rfl, rfl, rfl⟩

/-- **C203**: with an experiment that returns a new Series whenever its voltages are read, a tuner behaves as if it kept
the voltages instead of the Series: all answers and all suggestions are the same. -/
theorem tuner_keeps_voltages_partial [Fintype ι] (I : SolverI S ι) (w : World ι) (t : RefTuner S ι) (ha : Apart w t)
    (ops : List (Op S ι)) :
    (run I .copy w t ops).2.2 = (plainRun I (w.heap w.own) (t.deref w.heap) ops).2 ∧
      (run I .copy w t ops).2.1.deref (run I .copy w t ops).1.heap =
        (plainRun I (w.heap w.own) (t.deref w.heap) ops).1 := by
  induction ops generalizing w t with
  | nil => exact ⟨rfl, rfl⟩
  | cons op ops ih =>
    obtain ⟨h1, h2, h3, h4⟩ := step_copy I w t ha op
    obtain ⟨h5, h6⟩ := ih _ _ h1
    rw [h2, h3] at h5 h6
    simp only [run, plainRun]
    exact ⟨by rw [h5, h4], h6⟩

theorem isTuned_record (I : SolverI S ι) (outs : List Outcome) (v : Volt ι) (t : SubsetTuner S ι) :
    (isTuned I outs v t).1.tunedVoltages =
      t.tunedVoltages ++ (match (isTuned I outs v t).2 with | .ok true => [v] | _ => []) := by
  unfold isTuned
  simp only
  split
  · simp
  split
  · simp
  split
  · simp
  split
  · simp
  split
  · simp
  split
  · simp
  split <;> simp

theorem plainRun_record [Fintype ι] (I : SolverI S ι) (x : Volt ι) (t : SubsetTuner S ι) (ops : List (Op S ι)) :
    (plainRun I x t ops).1.tunedVoltages = t.tunedVoltages ++ tunedAt x ops (plainRun I x t ops).2 := by
  induction ops generalizing x t with
  | nil => simp [plainRun, tunedAt]
  | cons op ops ih =>
    simp only [plainRun]
    rw [ih]
    cases op with
    | evaluate outs =>
      have h := isTuned_record I outs x t
      simp only [plainStep]
      rw [h]
      rcases (isTuned I outs x t).2 with e | _ | _ <;> simp [tunedAt]
    | suggest params =>
      simp only [plainStep]
      rw [(nextVoltages_lists I params t).2.2]
      simp [tunedAt]
    | set v => simp [plainStep, tunedAt]
    | restart f => simp [plainStep, tunedAt]

/-- **C203**: with such an experiment, `tuned_voltages` are the voltages at which `is_tuned` has returned `True`, in this
order, after any sequence of evaluations, suggestions, restarts and changes of the voltages, whatever is measured and
whichever calls raise. -/
theorem tuned_voltages_recorded_partial [Fintype ι] (I : SolverI S ι) (w : World ι) (t : RefTuner S ι) (ha : Apart w t)
    (ops : List (Op S ι)) :
    (run I .copy w t ops).2.1.tuned.map (run I .copy w t ops).1.heap =
      t.tuned.map w.heap ++ tunedAt (w.heap w.own) ops (run I .copy w t ops).2.2 := by
  obtain ⟨h1, h2⟩ := tuner_keeps_voltages_partial I w t ha ops
  have h3 := plainRun_record I (w.heap w.own) (t.deref w.heap) ops
  rw [← h2, ← h1] at h3
  exact h3

/-- **C203** is false for experiments that return the Series in which they keep their voltages: when the voltages are
changed after an evaluation with the answer `True`, the voltages that were recorded change, too. -/
theorem recorded_voltages_refuted [Fintype ι] (I : SolverI S ι) (w : World ι) (t : RefTuner S ι) (outs : List Outcome)
    (v : Volt ι) (h : (isTuned I outs (w.heap w.own) (t.deref w.heap)).2 = .ok true) :
    ((run I .own w t [.evaluate outs, .set v]).2.1.tuned.map (run I .own w t [.evaluate outs, .set v]).1.heap).getLast? =
      some v := by
  obtain ⟨h1, h2⟩ := isTunedRef_deref I outs w.heap w.own t
  have h3 := isTuned_record I outs (w.heap w.own) (t.deref w.heap)
  rw [h] at h3
  rw [← h1] at h3
  obtain ⟨-, -, r3⟩ := isTunedRef_refs I outs w.heap w.own t
  have h4 : (isTunedRef I outs w.heap w.own t).1.tuned = t.tuned ++ [w.own] := by
    rcases r3 with e | e
    · have h5 := congrArg List.length h3
      simp [RefTuner.deref, e] at h5
    · exact e
  change ((isTunedRef I outs w.heap w.own t).1.tuned.map (Function.update w.heap w.own v)).getLast? = some v
  rw [h4]
  simp

/-- **C203**, consequence: with such an experiment a tuner does not find the way back.  After a good evaluation the
voltages are changed to `v`, and the evaluation there fails.  With new Series the tuner suggests the midpoint between
the two; here it suggests `v` again. -/
theorem recovery_refuted [Fintype ι] (I : SolverI S ι) (params : List String) (w : World ι) (t : RefTuner S ι)
    (hgood : t.evaluatable.getLast? = some w.own) (v : ι → ℝ) (outs : List Outcome)
    (hfail : (isTuned I outs (fun i => some (v i)) (t.deref (set (fun i => some (v i)) w).heap)).1.lastFailed = true)
    (hfail' : (isTuned I outs (fun i => some (v i)) (t.deref (set (fun i => some (v i)) w).heap)).1.evaluatable =
      (t.deref (set (fun i => some (v i)) w).heap).evaluatable) :
    ∃ r, (run I .own w t [.set (fun i => some (v i)), .evaluate outs, .suggest params]).2.2 =
      [.nothing, .answer r, .voltages (.ok fun i => some (v i))] := by
  obtain ⟨h1, h2⟩ := isTunedRef_deref I outs (set (fun i => some (v i)) w).heap w.own t
  obtain ⟨r1, -, -⟩ := isTunedRef_refs I outs (set (fun i => some (v i)) w).heap w.own t
  have hv : (set (fun i => some (v i)) w).heap w.own = fun i => some (v i) := by simp [set]
  rw [hv] at h1 h2
  refine ⟨(isTunedRef I outs (set (fun i => some (v i)) w).heap w.own t).2, ?_⟩
  simp only [run, step]
  congr 3
  simp only [read, nextRef]
  have e : (isTunedRef I outs (set (fun i => some (v i)) w).heap (set (fun i => some (v i)) w).own t).1.deref
      (set (fun i => some (v i)) w).heap =
      (isTuned I outs (fun i => some (v i)) (t.deref (set (fun i => some (v i)) w).heap)).1 := h1
  have el : (isTuned I outs (fun i => some (v i)) (t.deref (set (fun i => some (v i)) w).heap)).1.lastVoltage =
      fun i => some (v i) := by
    rw [← h1]
    change (set (fun i => some (v i)) w).heap (isTunedRef I outs (set (fun i => some (v i)) w).heap w.own t).1.last = _
    rw [r1, hv]
  have ee : (isTuned I outs (fun i => some (v i)) (t.deref (set (fun i => some (v i)) w).heap)).1.evaluatable.getLast? =
      some fun i => some (v i) := by
    rw [hfail']
    change (t.evaluatable.map (set (fun i => some (v i)) w).heap).getLast? = _
    rw [List.getLast?_map, hgood, Option.map_some, hv]
  rw [e]
  unfold nextVoltages
  rw [if_pos hfail, ee]
  simp only [el]
  congr 2
  funext i
  simp only [smul, vadd, Val.mul, Val.add]
  simp only [Option.bind_some, Option.map_some]
  congr 1
  ring

/-! ### Examples -/

/-- An experiment with one gate at 0, and the tuner that `newTuner` makes. -/
noncomputable def sampleWorld : World (Fin 1) := ⟨fun _ _ => some 0, 2, 0⟩

/-- The tuner keeps the Series number 1. -/
noncomputable def sampleTuner : RefTuner Unit (Fin 1) := ⟨newTuner goodTarget, 1, [], []⟩

/-- A good evaluation. -/
noncomputable def goodOuts : List Outcome := [.ok ([("a", some 1)], [("a", some 1)])]

/-- A failed evaluation. -/
noncomputable def failedOuts : List Outcome := [.ok ([("a", none)], [("a", none)])]

example : Apart sampleWorld sampleTuner := ⟨by simp [sampleWorld], by simp [sampleWorld, sampleTuner],
  by simp [sampleTuner], by simp [sampleTuner]⟩

theorem goodTarget_relevant : goodTarget.relevant = ["a"] := by
  simp [goodTarget, Target.relevant, Target.columns, Target.names]

example : (isTuned (constSolver goodTarget) goodOuts (sampleWorld.heap sampleWorld.own)
    (sampleTuner.deref sampleWorld.heap)).2 = .ok true := by
  unfold isTuned
  simp only [RefTuner.deref, sampleTuner, newTuner, goodTarget_relevant]
  simp [goodOuts, evaluate, collect, constSolver, goodTarget, Target.names, Series.select, Series.index,
    Series.val, List.lookup, rescaleValues, rescaleVariances, WithinTolerance, factor, Target.row?, Val.div]
  norm_num [Val.abs, abs_lt]

/-- The tuner after the good evaluation. -/
noncomputable def evaluatedTuner : RefTuner Unit (Fin 1) := ⟨newTuner goodTarget, 0, [0], [0]⟩

example : evaluatedTuner.evaluatable.getLast? = some sampleWorld.own ∧
    (isTuned (constSolver goodTarget) failedOuts (fun _ => some 5)
      (evaluatedTuner.deref (set (fun _ => some 5) sampleWorld).heap)).1.lastFailed = true ∧
    (isTuned (constSolver goodTarget) failedOuts (fun _ => some 5)
      (evaluatedTuner.deref (set (fun _ => some 5) sampleWorld).heap)).1.evaluatable =
      (evaluatedTuner.deref (set (fun _ => some 5) sampleWorld).heap).evaluatable := by
  refine ⟨rfl, ?_, ?_⟩ <;>
  · unfold isTuned
    simp only [RefTuner.deref, evaluatedTuner, newTuner, goodTarget_relevant]
    simp [failedOuts, evaluate, collect, constSolver, goodTarget, Target.names, Series.select, Series.index,
      Series.val, List.lookup, rescaleValues, rescaleVariances]

end Qtune.Tuner.Record
