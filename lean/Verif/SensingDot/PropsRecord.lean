import Verif.SensingDot.PropsRun
import Verif.SensingDot.PropsRetry
import Verif.EndToEnd.SensedDot

/-! # C180: what a `SensingDotTuner` reports about its parameters -/

namespace Qtune.SensingDot

open Qtune.Tuner

variable {S ι : Type}

/-! ## Specification -/

/-- The values of a scan make the expensive evaluators necessary: no NaN, and a parameter at or below its minimum and one at or below its cost threshold. -/
def Needed (T : Target) (p : Series) : Prop :=
  NoneNaN T p ∧ SomeAtOrBelow T Row.minimum p ∧ SomeAtOrBelow T Row.costThreshold p

/-- Histories of calls from the tuner `t₀` to the tuner `t`, with all values and variances that groups of evaluators returned, oldest first.
Calls of `is_tuned` in which no evaluator raises, calls in which the expensive or the cheap ones raise, and calls of `get_next_voltages`. -/
inductive Reports (I : SolverI S ι) (t₀ : SDTuner S ι) : List (Series × Series) → SDTuner S ι → Prop
  | start : Reports I t₀ [] t₀
  | cheap {log t} (cheap exp : List Outcome) (v : Volt ι) (p vars : Series) : Reports I t₀ log t →
      Delivers cheap t p vars → p.index.Nodup → vars.index.Nodup → ¬ Needed (I.target t.solver) p →
      Reports I t₀ (log ++ [(p, vars)]) (isTuned I cheap exp v t).1
  | both {log t} (cheap exp : List Outcome) (v : Volt ι) (p vars q qv : Series) : Reports I t₀ log t →
      Delivers cheap t p vars → p.index.Nodup → vars.index.Nodup → Needed (I.target t.solver) p →
      Delivers exp t q qv → q.index.Nodup → qv.index.Nodup →
      Reports I t₀ (log ++ [(p, vars), (q, qv)]) (isTuned I cheap exp v t).1
  | stopped {log t} (cheap exp : List Outcome) (v : Volt ι) (p vars : Series) (e : PyErr) : Reports I t₀ log t →
      Delivers cheap t p vars → p.index.Nodup → vars.index.Nodup → Needed (I.target t.solver) p → collect exp = .error e →
      Reports I t₀ (log ++ [(p, vars)]) (isTuned I cheap exp v t).1
  | raised {log t} (cheap exp : List Outcome) (v : Volt ι) (e : PyErr) : Reports I t₀ log t →
      collect cheap = .error e → Reports I t₀ log (isTuned I cheap exp v t).1
  | next {log t} (tuned : List String) : Reports I t₀ log t → Reports I t₀ log (nextVoltages I tuned t).1

/-- The last value and variance returned for a parameter. -/
def latest (l : String) (log : List (Series × Series)) : Option (Val × Val) :=
  (log.reverse.find? fun e => e.1.index.contains l).map fun e => (e.1.val l, e.2.val l)

/-- The solver keeps its target. -/
structure KeepsTarget (I : SolverI S ι) : Prop where
  update : ∀ v p y s, I.target (I.update v p y s).1 = I.target s
  suggest : ∀ tuned s, I.target (I.suggest tuned s).1 = I.target s

/-! ## Lemmas -/

theorem val_map (g : String × Val → Val) (l : String) : ∀ s : Series,
    Series.val (s.map fun e => (e.1, g e)) l = match s.find? (fun e => l == e.1) with | some e => g e | none => none
  | [] => rfl
  | a :: s => by
    have ih := val_map g l s
    unfold Series.val at ih ⊢
    rw [List.map_cons, List.lookup_cons, List.find?_cons]
    by_cases h : l == a.1
    · simp [h]
    · simp only [h]
      exact ih

theorem val_find (l : String) (s : Series) : s.val l = match s.find? (fun e => l == e.1) with | some e => e.2 | none => none := by
  have := val_map (fun e => e.2) l s
  simpa using this

theorem find_of_mem {l : String} : ∀ {s : Series}, l ∈ s.index → ∃ e, s.find? (fun e => l == e.1) = some e ∧ e.1 = l
  | [], h => by simp [Series.index] at h
  | a :: s, h => by
    by_cases ha : l = a.1
    · exact ⟨a, by simp [ha], ha.symm⟩
    · have : l ∈ Series.index s := by simpa [Series.index, ha] using h
      obtain ⟨e, he, h1⟩ := find_of_mem this
      exact ⟨e, by rw [List.find?_cons, beq_eq_false_iff_ne.2 ha]; exact he, h1⟩

theorem assign_val {s p s' : Series} (h : assign s p = .ok s') {l : String} (hl : l ∈ s.index) :
    s'.val l = if l ∈ p.index then p.val l else s.val l := by
  unfold assign at h
  split at h
  · simp only [Except.ok.injEq] at h
    subst h
    rw [val_map (fun e => if p.index.contains e.1 then p.val e.1 else e.2), val_find l s]
    obtain ⟨e, he, rfl⟩ := find_of_mem hl
    rw [he]
    simp only [List.contains_iff_mem]
  · cases h

theorem rescaled_val {T : Target} {p : Series} (hp : p.index.Nodup) {l : String} (hl : l ∈ p.index) :
    Series.val (rescaleValues T (sortIndex p)) l = Val.div (p.val l) (factor T l) := by
  obtain ⟨⟨l', x⟩, he, rfl⟩ := List.mem_map.1 hl
  rw [EndToEnd.val_of_mem hp he]
  refine EndToEnd.val_of_mem ?_ (mem_rescale.2 ⟨x, he, rfl⟩)
  have : Series.index (rescaleValues T (sortIndex p)) = (sortIndex p).index := by
    simp [rescaleValues, Series.index, Function.comp_def]
  rw [this]
  have hperm : (sortIndex p).index.Perm p.index := (List.mergeSort_perm _ _).map _
  exact hperm.nodup_iff.2 hp

theorem rescaled_variance {T : Target} {p : Series} (hp : p.index.Nodup) {l : String} (hl : l ∈ p.index) :
    Series.val (rescaleVariances T (sortIndex p)) l = Val.div (p.val l) (Val.mul (factor T l) (factor T l)) := by
  obtain ⟨⟨l', x⟩, he, rfl⟩ := List.mem_map.1 hl
  rw [EndToEnd.val_of_mem hp he]
  refine EndToEnd.val_of_mem ?_ ?_
  · have : Series.index (rescaleVariances T (sortIndex p)) = (sortIndex p).index := by
      simp [rescaleVariances, Series.index, Function.comp_def]
    rw [this]
    have hperm : (sortIndex p).index.Perm p.index := (List.mergeSort_perm _ _).map _
    exact hperm.nodup_iff.2 hp
  · unfold rescaleVariances
    exact List.mem_map.2 ⟨(l', x), mem_sortIndex.2 he, rfl⟩

theorem val_select (v : Series) (l : String) : ∀ ls : List String, l ∈ ls → Series.val (ls.map fun l => (l, v.val l)) l = v.val l
  | [], h => by simp at h
  | a :: ls, h => by
    unfold Series.val
    rw [List.map_cons, List.lookup_cons]
    by_cases ha : l = a
    · simp [ha]
    · have := val_select v l ls (by simpa [ha] using h)
      rw [beq_eq_false_iff_ne.2 ha]
      exact this

theorem assignVariances_val {s p v s' : Series} (h : assignVariances s p v = .ok s') {l : String} (hl : l ∈ s.index) :
    s'.val l = if l ∈ p.index then v.val l else s.val l := by
  unfold assignVariances at h
  split at h
  · cases h
  · rename_i v' hv
    rw [assign_val h hl]
    unfold Series.select at hv
    split at hv
    · cases hv
    · cases hv
      rw [Series.index_map_mk]
      split
      · rename_i hlp
        exact val_select v l _ hlp
      · rfl

/-- What the two series hold after the results of one group of evaluators were written to them. -/
structure Written (T : Target) (p vars : Series) (t : SDTuner S ι) (lv lvar : Series) : Prop where
  index : lv.index = t.lastValues.index ∧ lvar.index = t.lastVariances.index
  value : ∀ l ∈ t.lastValues.index, lv.val l = if l ∈ p.index then Val.div (p.val l) (factor T l) else t.lastValues.val l
  variance : ∀ l ∈ t.lastVariances.index,
    lvar.val l = if l ∈ p.index then Val.div (vars.val l) (Val.mul (factor T l) (factor T l)) else t.lastVariances.val l

theorem written {T : Target} {outs : List Outcome} {p vars : Series} {t : SDTuner S ι} (h : Delivers outs t p vars) (hp : p.index.Nodup)
    (hv : vars.index.Nodup) : ∃ lv lvar, assign t.lastValues (rescaleValues T (sortIndex p)) = .ok lv ∧
      assignVariances t.lastVariances (rescaleValues T (sortIndex p)) (rescaleVariances T (sortIndex vars)) = .ok lvar ∧
      Written T p vars t lv lvar := by
  obtain ⟨lv, hlv, hli⟩ := assign_ok (s := t.lastValues) (p := rescaleValues T (sortIndex p))
    (fun l hl => (h.known l (mem_index_rescale.1 hl)).1)
  obtain ⟨lvar, hlvar, hlvi⟩ := assignVariances_ok (s := t.lastVariances) (p := rescaleValues T (sortIndex p))
    (v := rescaleVariances T (sortIndex vars))
    (fun l hl => (h.known l (mem_index_rescale.1 hl)).2)
    (fun l hl => mem_index_rescaleVar.2 (h.has_variance l (mem_index_rescale.1 hl)))
  refine ⟨lv, lvar, hlv, hlvar, ⟨hli, hlvi⟩, fun l hl => ?_, fun l hl => ?_⟩
  · rw [assign_val hlv hl]
    simp only [mem_index_rescale]
    split
    · rename_i hlp
      exact rescaled_val hp hlp
    · rfl
  · rw [assignVariances_val hlvar hl]
    simp only [mem_index_rescale]
    split
    · rename_i hlp
      exact rescaled_variance hv (h.has_variance l hlp)
    · rfl

/-- One call without an expensive evaluation. -/
theorem record_cheap (I : SolverI S ι) (hI : KeepsTarget I) (cheap exp : List Outcome) (v : Volt ι) (t : SDTuner S ι) (p vars : Series)
    (hc : Delivers cheap t p vars) (hp : p.index.Nodup) (hv : vars.index.Nodup)
    (hn : ¬ Needed (I.target t.solver) p ∨ ∃ e, collect exp = .error e) :
    Written (I.target t.solver) p vars t (isTuned I cheap exp v t).1.lastValues (isTuned I cheap exp v t).1.lastVariances ∧
      I.target (isTuned I cheap exp v t).1.solver = I.target t.solver := by
  obtain ⟨lv, lvar, h1, h2, hw⟩ := written (T := I.target t.solver) hc hp hv
  unfold isTuned
  rw [evaluate_eq hc]
  simp only [h1, h2]
  by_cases hN : NoneNaN (I.target t.solver) p
  · rw [if_neg (by rw [anyNaN_iff]; simpa using hN)]
    by_cases hm : SomeAtOrBelow (I.target t.solver) Row.minimum p
    · rw [if_pos ((anyLe_iff _ _ _).2 hm)]
      unfold maybeExpensive
      by_cases hcost : SomeAtOrBelow (I.target t.solver) Row.costThreshold p
      · rw [if_pos ((anyLe_iff _ _ _).2 hcost)]
        rcases hn with hn | ⟨e, he⟩
        · exact absurd ⟨hN, hm, hcost⟩ hn
        · have : evaluate exp = .error e := by unfold evaluate; rw [he]
          simp only [this]
          exact ⟨hw, trivial⟩
      · rw [if_neg (by rw [anyLe_iff]; exact hcost)]
        simp only
        have := hI.update v (rescaleValues (I.target t.solver) (sortIndex p)) (rescaleVariances (I.target t.solver) (sortIndex vars)) t.solver
        split
        · rename_i hs; rw [hs] at this; exact ⟨hw, this⟩
        · rename_i hs; rw [hs] at this; exact ⟨hw, this⟩
    · rw [if_neg (by rw [anyLe_iff]; exact hm)]
      exact ⟨hw, rfl⟩
  · rw [if_pos ((anyNaN_iff _ _).2 hN)]
    exact ⟨hw, rfl⟩

/-- One call with an expensive evaluation. -/
theorem record_both (I : SolverI S ι) (hI : KeepsTarget I) (cheap exp : List Outcome) (v : Volt ι) (t : SDTuner S ι) (p vars q qv : Series)
    (hc : Delivers cheap t p vars) (hp : p.index.Nodup) (hv : vars.index.Nodup) (hn : Needed (I.target t.solver) p)
    (he : Delivers exp t q qv) (hq : q.index.Nodup) (hqv : qv.index.Nodup) :
    (∃ t' : SDTuner S ι, Written (I.target t.solver) p vars t t'.lastValues t'.lastVariances ∧
      Written (I.target t.solver) q qv t' (isTuned I cheap exp v t).1.lastValues (isTuned I cheap exp v t).1.lastVariances) ∧
      I.target (isTuned I cheap exp v t).1.solver = I.target t.solver := by
  obtain ⟨lv, lvar, h1, h2, hw⟩ := written (T := I.target t.solver) hc hp hv
  obtain ⟨hN, hm, hcost⟩ := hn
  let t' : SDTuner S ι := { t with lastVoltage := v, lastValues := lv, lastVariances := lvar, lastFailed := false, cheapOnly := false }
  have he' : Delivers exp t' q qv := ⟨he.some_evaluator, he.result, (fun l hl => by
    have := he.known l hl
    rw [← hw.index.1, ← hw.index.2] at this
    exact this), he.has_variance⟩
  obtain ⟨lv', lvar', h3, h4, hw'⟩ := written (T := I.target t.solver) he' hq hqv
  unfold isTuned
  rw [evaluate_eq hc]
  simp only [h1, h2]
  rw [if_neg (by rw [anyNaN_iff]; simpa using hN), if_pos ((anyLe_iff _ _ _).2 hm)]
  unfold maybeExpensive
  rw [if_pos ((anyLe_iff _ _ _).2 hcost), evaluate_eq he]
  simp only [t'] at h3 h4
  simp only [h3, h4]
  have := hI.update v (rescaleValues (I.target t.solver) (sortIndex q)) (rescaleVariances (I.target t.solver) (sortIndex qv)) t.solver
  split
  · rename_i hs; rw [hs] at this; exact ⟨⟨t', hw, hw'⟩, this⟩
  · rename_i hs; rw [hs] at this; exact ⟨⟨t', hw, hw'⟩, this⟩

theorem latest_append (l : String) (log : List (Series × Series)) (p vars : Series) :
    latest l (log ++ [(p, vars)]) = if l ∈ p.index then some (p.val l, vars.val l) else latest l log := by
  unfold latest
  rw [List.reverse_append]
  simp only [List.reverse_cons, List.reverse_nil, List.nil_append, List.singleton_append, List.find?_cons]
  by_cases h : l ∈ p.index
  · simp [h]
  · simp [h]

/-- The invariant of the histories. -/
structure Latest (T : Target) (t₀ : SDTuner S ι) (log : List (Series × Series)) (lv lvar : Series) : Prop where
  index : lv.index = t₀.lastValues.index ∧ lvar.index = t₀.lastVariances.index
  value : ∀ l ∈ t₀.lastValues.index, lv.val l = match latest l log with
    | some y => Val.div y.1 (factor T l)
    | none => t₀.lastValues.val l
  variance : ∀ l ∈ t₀.lastVariances.index, lvar.val l = match latest l log with
    | some y => Val.div y.2 (Val.mul (factor T l) (factor T l))
    | none => t₀.lastVariances.val l

theorem Latest.write {T : Target} {t₀ t : SDTuner S ι} {log : List (Series × Series)} {p vars lv lvar : Series}
    (h : Latest T t₀ log t.lastValues t.lastVariances) (hw : Written T p vars t lv lvar) : Latest T t₀ (log ++ [(p, vars)]) lv lvar := by
  refine ⟨⟨hw.index.1.trans h.index.1, hw.index.2.trans h.index.2⟩, fun l hl => ?_, fun l hl => ?_⟩
  · rw [hw.value l (by rw [h.index.1]; exact hl), latest_append]
    split
    · rfl
    · exact h.value l hl
  · rw [hw.variance l (by rw [h.index.2]; exact hl), latest_append]
    split
    · rfl
    · exact h.variance l hl

theorem Reports.latest {I : SolverI S ι} (hI : KeepsTarget I) {t₀ t : SDTuner S ι} {log : List (Series × Series)} (h : Reports I t₀ log t) :
    Latest (I.target t₀.solver) t₀ log t.lastValues t.lastVariances ∧ I.target t.solver = I.target t₀.solver := by
  induction h with
  | start => exact ⟨⟨⟨rfl, rfl⟩, (fun l _ => rfl), (fun l _ => rfl)⟩, rfl⟩
  | cheap cheap exp v p vars _ hc hp hv hn ih =>
    obtain ⟨h1, h2⟩ := record_cheap I hI cheap exp v _ p vars hc hp hv (.inl hn)
    rw [ih.2] at h1
    exact ⟨ih.1.write h1, h2.trans ih.2⟩
  | both cheap exp v p vars q qv _ hc hp hv hn he hq hqv ih =>
    obtain ⟨⟨t', h1, h1'⟩, h2⟩ := record_both I hI cheap exp v _ p vars q qv hc hp hv hn he hq hqv
    rw [ih.2] at h1 h1'
    have := (ih.1.write h1).write h1'
    rw [List.append_assoc] at this
    exact ⟨this, h2.trans ih.2⟩
  | stopped cheap exp v p vars e _ hc hp hv hn he ih =>
    obtain ⟨h1, h2⟩ := record_cheap I hI cheap exp v _ p vars hc hp hv (.inr ⟨e, he⟩)
    rw [ih.2] at h1
    exact ⟨ih.1.write h1, h2.trans ih.2⟩
  | @raised log t cheap exp v e _ he ih =>
    rw [isTuned_raised I cheap exp v t e he]
    exact ih
  | @next log t tuned _ ih =>
    have h1 : (nextVoltages I tuned t).1.lastValues = t.lastValues ∧ (nextVoltages I tuned t).1.lastVariances = t.lastVariances ∧
        I.target (nextVoltages I tuned t).1.solver = I.target t.solver := by
      unfold nextVoltages
      have := hI.suggest tuned t.solver
      split
      · split <;> exact ⟨rfl, rfl, rfl⟩
      · split
        rename_i hs
        rw [hs] at this
        exact ⟨rfl, rfl, this⟩
    rw [h1.1, h1.2.1, h1.2.2]
    exact ih

/-! ## C180 -/

/-- **C180.** After any history of calls `last_parameter_values` and `last_parameters_variances` have the labels they had, and hold for every
parameter the value and variance that an evaluator returned last for it, in units of the target, whether it was a cheap or an expensive one and
even if later evaluators raised; for parameters that were not measured they hold what they did at the start. -/
theorem sensing_dot_reports_latest {I : SolverI S ι} (hI : KeepsTarget I) {t₀ t : SDTuner S ι} {log : List (Series × Series)}
    (h : Reports I t₀ log t) :
    t.lastValues.index = t₀.lastValues.index ∧ t.lastVariances.index = t₀.lastVariances.index ∧
    (∀ l ∈ t₀.lastValues.index, ∀ x y, latest l log = some (x, y) → t.lastValues.val l = Val.div x (factor (I.target t₀.solver) l)) ∧
    (∀ l ∈ t₀.lastVariances.index, ∀ x y, latest l log = some (x, y) →
      t.lastVariances.val l = Val.div y (Val.mul (factor (I.target t₀.solver) l) (factor (I.target t₀.solver) l))) ∧
    (∀ l, latest l log = none → (l ∈ t₀.lastValues.index → t.lastValues.val l = t₀.lastValues.val l) ∧
      (l ∈ t₀.lastVariances.index → t.lastVariances.val l = t₀.lastVariances.val l)) := by
  obtain ⟨h, -⟩ := h.latest hI
  refine ⟨h.index.1, h.index.2, fun l hl x y hx => ?_, fun l hl x y hx => ?_, fun l hx => ⟨fun hl => ?_, fun hl => ?_⟩⟩
  · have := h.value l hl
    rwa [hx] at this
  · have := h.variance l hl
    rwa [hx] at this
  · have := h.value l hl
    rwa [hx] at this
  · have := h.variance l hl
    rwa [hx] at this

/-- A contrast of 1/2 and the optimal voltage 7, and then a contrast of 3: the tuner reports 3 and 7. -/
example : ∃ t : SDTuner Unit (Fin 1), Reports sdSolver sdTuner
    [([("c", some (1 / 2))], [("c", some 0)]), ([("x", some 7)], [("x", some 0)]), ([("c", some 3)], [("c", some 0)])] t ∧
    latest "c" [([("c", some (1 / 2))], [("c", some 0)]), ([("x", some 7)], [("x", some 0)]), ([("c", some 3)], [("c", some 0)])] =
      some (some 3, some 0) ∧
    latest "x" [([("c", some (1 / 2))], [("c", some 0)]), ([("x", some 7)], [("x", some 0)]), ([("c", some 3)], [("c", some 0)])] =
      some (some 7, some 0) := by
  have hI : KeepsTarget sdSolver := ⟨fun _ _ _ _ => rfl, fun _ _ => rfl⟩
  have h1 := Reports.both (I := sdSolver) (one "c" (some (1 / 2))) (one "x" (some 7)) (fun _ => some 0) [("c", some (1 / 2))] [("c", some 0)]
    [("x", some 7)] [("x", some 0)] (Reports.start (t₀ := sdTuner)) (delivers_one _ _ (.inl rfl)) (by simp [Series.index]) (by simp [Series.index])
    ⟨sd_noNaN _, (sd_min _).2 (by norm_num), (sd_cost _).2 (by norm_num)⟩ (delivers_one _ _ (.inr rfl)) (by simp [Series.index])
    (by simp [Series.index])
  have hi := sensing_dot_reports_latest hI h1
  have h2 := Reports.cheap (one "c" (some 3)) [] (fun _ => some 0) [("c", some 3)] [("c", some 0)] h1 ⟨by simp [one], by simp [one, collect], (fun l hl => by
      rw [hi.1, hi.2.1]
      have : l = "c" := by simpa [Series.index] using hl
      subst this
      simp [sdTuner, Series.index]), by simp [Series.index]⟩ (by simp [Series.index]) (by simp [Series.index]) (by
        rintro ⟨-, h, -⟩
        have := (sd_min 3).1 h
        norm_num at this)
  exact ⟨_, h2, by simp [latest, Series.index, Series.val], by simp [latest, Series.index, Series.val]⟩

end Qtune.SensingDot
