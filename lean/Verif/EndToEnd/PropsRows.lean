import Verif.EndToEnd.RowsSpec
import Verif.EndToEnd.RetryLemmas
import Verif.History.Props

/-!
# C147: the numbers in a row of the history were measured at the voltages of the row
-/

namespace Qtune.History

variable {γ κ ρ π : Type}

theorem getElem_range_map {β : Type} {f : Nat → β} {m i j : Nat} {e : β} (h : e ∈ slice ((List.range m).map f) i j) :
    ∃ k < j, k < m ∧ e = f k := by
  unfold slice at h
  have h := List.mem_of_mem_drop h
  rw [← List.map_take, List.take_range] at h
  obtain ⟨k, hk, rfl⟩ := List.mem_map.1 h
  have := List.mem_range.1 hk
  exact ⟨k, by omega, by omega, rfl⟩

variable [DecidableEq γ]

/-- A predicate of the cells is kept by `append`. -/
theorem append_cells [DecidableEq κ] {W X V P C : Type} {R : Reader W γ κ ρ} {H : Autotuner.Hierarchy W X V P C}
    {s : Autotuner.State W X V} {h h' : Hist γ κ ρ π} {p : π} (Good : γ → κ → ρ → Prop)
    (ha : append h (R.view H s) p = .ok h') (hr : ∀ r ∈ h.rows, ∀ c y, (c, y) ∈ r.cells → Good r.voltages c y)
    (hev : ∀ i < (R.view H s).evaluated, i < H.len → ∀ c y, (c, y) ∈ R.cols s.tuners i → Good (R.lastVoltages s.tuners) c y)
    (hfirst : h.rows = [] → ∀ i < H.len, ∀ c y, (c, y) ∈ R.cols s.tuners i → Good (R.lastVoltages s.tuners) c y) :
    h'.rows ≠ [] ∧ ∀ r ∈ h'.rows, ∀ c y, (c, y) ∈ r.cells → Good r.voltages c y := by
  have hsl : ∀ k c y, (c, y) ∈ columns (slice (R.view H s).tuners k (R.view H s).evaluated) →
      Good (R.lastVoltages s.tuners) c y := by
    intro k c y hc
    obtain ⟨t, ht, hc⟩ := mem_columns.1 hc
    obtain ⟨i, hi, hil, rfl⟩ := getElem_range_map ht
    exact hev i hi hil c y hc
  obtain ⟨h1, hh1, hg⟩ : ∃ h1 : Hist γ κ ρ π, (if h.rows.isEmpty then ⟨[firstRow (R.view H s)], [p]⟩ else h) = h1 ∧
      ∀ r ∈ h1.rows, ∀ c y, (c, y) ∈ r.cells → Good r.voltages c y := by
    refine ⟨_, rfl, ?_⟩
    split
    · rename_i he
      intro r hr' c y hc
      rw [List.mem_singleton.1 hr'] at hc ⊢
      obtain ⟨t, ht, hc⟩ := mem_columns.1 hc
      obtain ⟨i, hi, rfl⟩ := List.mem_map.1 ht
      exact hfirst (List.isEmpty_iff.1 he) i (List.mem_range.1 hi) c y hc
    · exact hr
  unfold append at ha
  simp only [hh1] at ha
  split at ha
  · cases ha
  · rename_i r hlast
    have hrm : r ∈ h1.rows := List.mem_of_getLast? hlast
    split at ha
    · rename_i hv
      split at ha
      · cases ha
      · rename_i r' hst
        cases ha
        refine ⟨by simp, ?_⟩
        intro r1 hr1 c y hc
        rcases List.mem_append.1 hr1 with hr1 | hr1
        · exact hg r1 (List.mem_of_mem_dropLast hr1) c y hc
        · rw [List.mem_singleton.1 hr1] at hc ⊢
          unfold stay at hst
          split at hst
          · cases hst
          · split at hst
            · cases hst
              rw [show (R.view H s).voltages = r.voltages from hv]
              exact hg r hrm c y hc
            · cases hst
              rcases List.mem_append.1 hc with hc | hc
              · exact hsl _ c y hc
              · show Good (R.view H s).voltages c y
                rw [show (R.view H s).voltages = r.voltages from hv]
                exact hg r hrm c y hc
    · cases ha
      refine ⟨by simp, ?_⟩
      intro r1 hr1 c y hc
      rcases List.mem_append.1 hr1 with hr1 | hr1
      · exact hg r1 hr1 c y hc
      · rw [List.mem_singleton.1 hr1] at hc ⊢
        rw [newRow_voltages]
        unfold newRow at hc
        split at hc
        · simp at hc
        · exact hsl _ c y hc

end Qtune.History

namespace Qtune.EndToEnd

open Qtune.Tuner Qtune.Gradient Qtune.Autotuner Qtune.History

variable {X : Type} {n K : Nat}

theorem collect_mem : ∀ {outs : List Outcome} {p v : Series}, collect outs = .ok (p, v) →
    (∀ e ∈ p, ∃ p' v', Except.ok (p', v') ∈ outs ∧ e ∈ p') ∧ ∀ e ∈ v, ∃ p' v', Except.ok (p', v') ∈ outs ∧ e ∈ v'
  | [], p, v, h => by
    cases h
    exact ⟨by simp, by simp⟩
  | .error e :: _, p, v, h => by cases h
  | .ok (p', v') :: rest, p, v, h => by
    unfold collect at h
    split at h
    · cases h
    · rename_i ps vs hc
      cases h
      obtain ⟨h1, h2⟩ := collect_mem hc
      refine ⟨fun e he => ?_, fun e he => ?_⟩
      · rcases List.mem_append.1 he with he | he
        · exact ⟨p', v', by simp, he⟩
        · obtain ⟨a, b, h3, h4⟩ := h1 e he
          exact ⟨a, b, List.mem_cons_of_mem _ h3, h4⟩
      · rcases List.mem_append.1 he with he | he
        · exact ⟨p', v', by simp, he⟩
        · obtain ⟨a, b, h3, h4⟩ := h2 e he
          exact ⟨a, b, List.mem_cons_of_mem _ h3, h4⟩

theorem mem_of_val {s : Series} {l : String} (h : s.val l ≠ none) : (l, s.val l) ∈ s := by
  unfold Series.val at h ⊢
  cases hl : s.lookup l with
  | none => simp [hl] at h
  | some z =>
    rw [Option.join_some]
    obtain ⟨a, b, hs, -⟩ := List.lookup_eq_some_iff.1 hl
    rw [hs]
    simp

theorem select_mem {s t : Series} {ls : List String} (h : s.select ls = .ok t) {l : String} {y : Val}
    (hm : (l, y) ∈ t) : y = none ∨ (l, y) ∈ s := by
  rw [Series.select_ok h] at hm
  obtain ⟨l', -, he⟩ := List.mem_map.1 hm
  cases he
  by_cases hn : s.val l = none
  · exact .inl hn
  · exact .inr (mem_of_val hn)

theorem div_none (x : Val) : Val.div none x = none := rfl

theorem evaluate_mem {T : Target} {outs : List Outcome} {p v : Series} (h : evaluate T outs = .ok (p, v)) :
    (∀ l y, (l, y) ∈ p → y = none ∨ ∃ p' v', Except.ok (p', v') ∈ outs ∧ (l, y) ∈ p') ∧
    ∀ l y, (l, y) ∈ v → y = none ∨ ∃ p' v', Except.ok (p', v') ∈ outs ∧ (l, y) ∈ v' := by
  unfold evaluate at h
  split at h
  · cases h
  · rename_i ps vs hc
    obtain ⟨h1, h2⟩ := collect_mem hc
    split at h
    · cases h
    · rename_i p' hp
      split at h
      · cases h
      · rename_i v' hv
        cases h
        exact ⟨fun l y hm => (select_mem hp hm).imp_right (h1 _), fun l y hm => (select_mem hv hm).imp_right (h2 _)⟩

/-- What an evaluation that is not skipped leaves. -/
theorem isTuned_measures (I : Newton.EstI X (Fin n)) (lstsq : Newton.Lstsq (Fin n)) (outs : List Outcome)
    (v : Volt (Fin n)) (t : OneTuner X n) (hq : t.queued = 0) {t' : OneTuner X n} {b : Bool}
    (h : isTuned (Newton.solver I lstsq) outs v t = (t', .ok b)) :
    t'.lastVoltage = v ∧ t'.queued = 0 ∧ t'.maxStep = t.maxStep ∧ t'.solver.target = t.solver.target ∧
    (∀ l y, (l, y) ∈ t'.lastValues → y = none ∨ ∃ p vars z, Except.ok (p, vars) ∈ outs ∧ (l, z) ∈ p ∧
      y = Val.div z (factor t.solver.target l)) ∧
    ∀ l y, (l, y) ∈ t'.lastVariances → y = none ∨ ∃ p vars z, Except.ok (p, vars) ∈ outs ∧ (l, z) ∈ vars ∧
      y = Val.div z (Val.mul (factor t.solver.target l) (factor t.solver.target l)) := by
  have hT : (Newton.solver I lstsq).target t.solver = t.solver.target := rfl
  have hupd : ∀ (p vars : Series), (Newton.update I v p vars t.solver).1.target = t.solver.target := by
    intro p vars
    unfold Newton.update
    split
    · rfl
    · split <;> rfl
  unfold isTuned at h
  dsimp only at h
  rw [if_neg (by simp [hq])] at h
  split at h
  · cases h
  · rename_i p vars hev
    obtain ⟨hm1, hm2⟩ := evaluate_mem hev
    rw [hT] at h
    split at h
    · cases h
    · rename_i lv hlv
      have key1 : ∀ l y, (l, y) ∈ lv → y = none ∨ ∃ p vars z, Except.ok (p, vars) ∈ outs ∧ (l, z) ∈ p ∧
          y = Val.div z (factor t.solver.target l) := by
        intro l y hm
        rcases select_mem hlv hm with h0 | h0
        · exact .inl h0
        · obtain ⟨⟨l', z⟩, hz, he⟩ := List.mem_map.1 h0
          cases he
          rcases hm1 l' z hz with rfl | ⟨p', v', h1, h2⟩
          · exact .inl rfl
          · exact .inr ⟨p', v', z, h1, h2, rfl⟩
      split at h
      · cases h
      · rename_i lvar hlvar
        have key2 : ∀ l y, (l, y) ∈ lvar → y = none ∨ ∃ p vars z, Except.ok (p, vars) ∈ outs ∧ (l, z) ∈ vars ∧
            y = Val.div z (Val.mul (factor t.solver.target l) (factor t.solver.target l)) := by
          intro l y hm
          rcases select_mem hlvar hm with h0 | h0
          · exact .inl h0
          · obtain ⟨⟨l', z⟩, hz, he⟩ := List.mem_map.1 h0
            cases he
            rcases hm2 l' z hz with rfl | ⟨p', v', h1, h2⟩
            · exact .inl rfl
            · exact .inr ⟨p', v', z, h1, h2, rfl⟩
        split at h
        · cases h
          exact ⟨rfl, hq, rfl, rfl, key1, key2⟩
        · split at h
          · cases h
          · rename_i s hs
            have hs' : s.target = t.solver.target := by
              have := hupd (rescaleValues t.solver.target p) (rescaleVariances t.solver.target vars)
              have h3 := congrArg Prod.fst hs
              exact (congrArg (·.target) h3).symm.trans this
            split at h
            · cases h
              exact ⟨rfl, hq, rfl, hs', key1, key2⟩
            · cases h
              exact ⟨rfl, hq, rfl, hs', key1, key2⟩

theorem suggest_target (I : Newton.EstI X (Fin n)) (lstsq : Newton.Lstsq (Fin n)) (tuned : List String)
    (s : Newton.State X (Fin n)) : (Newton.suggest I lstsq tuned s).1.target = s.target := by
  unfold Newton.suggest
  split
  · rfl
  · split
    · rfl
    · rfl
    · split <;> rfl

/-- A suggestion changes nothing that the history reads. -/
theorem nextVoltages_reads (I : Newton.EstI X (Fin n)) (lstsq : Newton.Lstsq (Fin n)) (tuned : List String)
    (t : OneTuner X n) :
    (nextVoltages (Newton.solver I lstsq) tuned t).1.lastVoltage = t.lastVoltage ∧
    (nextVoltages (Newton.solver I lstsq) tuned t).1.lastValues = t.lastValues ∧
    (nextVoltages (Newton.solver I lstsq) tuned t).1.lastVariances = t.lastVariances ∧
    (nextVoltages (Newton.solver I lstsq) tuned t).1.solver.target = t.solver.target := by
  have htg := suggest_target I lstsq tuned t.solver
  unfold nextVoltages
  split
  · split <;> exact ⟨rfl, rfl, rfl, rfl⟩
  · split
    · rename_i s e hs
      have h3 : (Newton.suggest I lstsq tuned t.solver).1 = s := congrArg Prod.fst hs
      subst h3
      exact ⟨rfl, rfl, rfl, htg⟩
    · rename_i s sug hs
      have h3 : (Newton.suggest I lstsq tuned t.solver).1 = s := congrArg Prod.fst hs
      subst h3
      dsimp only
      split <;> exact ⟨rfl, rfl, rfl, htg⟩

/-- A suggestion changes no number of steps if there is no maximal step size. -/
theorem nextVoltages_keeps (I : Newton.EstI X (Fin n)) (lstsq : Newton.Lstsq (Fin n)) (tuned : List String)
    (t : OneTuner X n) (hm : t.maxStep = none) :
    (nextVoltages (Newton.solver I lstsq) tuned t).1.lastVoltage = t.lastVoltage ∧
    (nextVoltages (Newton.solver I lstsq) tuned t).1.lastValues = t.lastValues ∧
    (nextVoltages (Newton.solver I lstsq) tuned t).1.lastVariances = t.lastVariances ∧
    (nextVoltages (Newton.solver I lstsq) tuned t).1.queued = t.queued ∧
    (nextVoltages (Newton.solver I lstsq) tuned t).1.maxStep = none ∧
    (nextVoltages (Newton.solver I lstsq) tuned t).1.solver.target = t.solver.target := by
  have htg := suggest_target I lstsq tuned t.solver
  unfold nextVoltages
  split
  · split <;> exact ⟨rfl, rfl, rfl, rfl, hm, rfl⟩
  · split
    · rename_i s e hs
      have h3 : (Newton.suggest I lstsq tuned t.solver).1 = s := congrArg Prod.fst hs
      subst h3
      exact ⟨rfl, rfl, rfl, rfl, hm, htg⟩
    · rename_i s sug hs
      have h3 : (Newton.suggest I lstsq tuned t.solver).1 = s := congrArg Prod.fst hs
      subst h3
      dsimp only
      have hsl : ∀ step : Volt (Fin n), Tuner.slice t.maxStep t.maxNumber t.queued step = .ok (t.queued, step) := by
        intro step
        unfold Tuner.slice
        rw [hm]
        split
        · rename_i h; cases h
        · rfl
      split
      · exact ⟨rfl, rfl, rfl, rfl, hm, htg⟩
      · rename_i q step hq
        rw [hsl] at hq
        cases hq
        exact ⟨rfl, rfl, rfl, rfl, hm, htg⟩

/-- What holds after each call of `iterate`. -/
structure RowsInv (T : Nat → Target) (outs : Nat → Volt (Fin n) → List Outcome) (K : Nat) (started : Bool)
    (s : Autotuner.State (Shared X n) (Volt (Fin n)) (Volt (Fin n))) (evaluated : Nat) : Prop where
  target : ∀ i, (s.tuners.tuners i).solver.target = T i
  limit : ∀ i, (s.tuners.tuners i).maxStep = none
  queued : ∀ i, (s.tuners.tuners i).queued = 0
  values : ∀ i < evaluated, i < K → ∀ c y, (c, y) ∈ rowReader.cols s.tuners i →
    RowMeasuredAt T outs K (s.tuners.tuners 0).lastVoltage c y
  gates : s.pending = none → 0 < evaluated → (s.tuners.tuners 0).lastVoltage = s.expt
  first : started = false → s.pending = none ∧ s.status = false ∧
    ∀ i c y, (c, y) ∈ rowReader.cols s.tuners i → y = none
  pend : s.pending.isSome → s.status = false

theorem cols_put_of_ne {w : Shared X n} {i j : Nat} (h : j ≠ i) (t : OneTuner X n) :
    rowReader.cols (w.put i t) j = rowReader.cols w j := by
  simp [rowReader, Shared.put, Function.update_of_ne h]

theorem mem_cols {w : Shared X n} {i : Nat} {c : Quantity} {y : Val} (h : (c, y) ∈ rowReader.cols w i) :
    (∃ l, c = .value l ∧ (l, y) ∈ (w.tuners i).lastValues) ∨
    ∃ l, c = .variance l ∧ (l, y) ∈ (w.tuners i).lastVariances := by
  rcases List.mem_append.1 h with h | h
  · obtain ⟨⟨l, y'⟩, hm, he⟩ := List.mem_map.1 h
    cases he
    exact .inl ⟨l, rfl, List.mem_of_mem_filter hm⟩
  · obtain ⟨⟨l, y'⟩, hm, he⟩ := List.mem_map.1 h
    cases he
    exact .inr ⟨l, rfl, List.mem_of_mem_filter hm⟩

theorem rows_step {I : Newton.EstI X (Fin n)} {lstsq : Newton.Lstsq (Fin n)} {outs : Nat → Volt (Fin n) → List Outcome}
    {T : Nat → Target} {started : Bool} {s s' : Autotuner.State (Shared X n) (Volt (Fin n)) (Volt (Fin n))}
    {evs : List (Autotuner.Event (Shared X n) (Volt (Fin n)) (List String))}
    (h : RowsInv T outs K started s (rowReader.view (multiHierarchy I lstsq K outs) s).evaluated)
    (hs : iterate (multiHierarchy I lstsq K outs) (.ok ()) s = (s', evs, .ok ())) :
    RowsInv T outs K true s' (rowReader.view (multiHierarchy I lstsq K outs) s').evaluated ∧
    (started = false → ∀ i < K, ∀ c y, (c, y) ∈ rowReader.cols s'.tuners i →
      RowMeasuredAt T outs K (s'.tuners.tuners 0).lastVoltage c y) := by
  rcases iterate_cases hs with ⟨v, x, hp, rfl, -⟩ | ⟨w, x, b, hp, hst, hl, ht, rfl, -⟩ | ⟨w, v, p, hp, hst, hl, ht, rfl, -⟩
  · have hst := h.pend (by simp [hp])
    refine ⟨⟨h.target, h.limit, h.queued, ?_, ?_, fun hc => by simp at hc, by simp⟩, ?_⟩
    · intro i hi
      simp [Reader.view, View.evaluated, hst] at hi
    · intro _ h0
      simp [Reader.view, View.evaluated, hst] at h0
    · intro h0
      have := (h.first h0).1
      rw [hp] at this
      cases this
  · -- an evaluation
    have hl : s.index < K := hl
    have hev : (rowReader.view (multiHierarchy I lstsq K outs) s).evaluated = s.index := by
      simp [Reader.view, View.evaluated, hst, hp]
    have hev' : (rowReader.view (multiHierarchy I lstsq K outs) { s with
        tuners := w, expt := x, index := if b = true then s.index + 1 else s.index, status := !b }).evaluated = s.index + 1 := by
      cases b <;> simp [Reader.view, View.evaluated, hp]
    rw [hev] at h
    rw [hev']
    simp only [multiHierarchy, id_eq, Prod.mk.injEq] at ht
    obtain ⟨⟨hw, rfl⟩, hb⟩ := ht
    rcases hr : isTuned (Newton.solver I lstsq) (outs s.index s.expt) s.expt (s.tuners.get s.index) with ⟨t', r⟩
    rw [hr] at hw hb
    dsimp only at hw hb
    subst hb
    obtain ⟨m1, m2, m3, m4, m5, m6⟩ := isTuned_measures I lstsq _ _ (s.tuners.get s.index) (h.queued s.index) hr
    have hT : (s.tuners.get s.index).solver.target = T s.index := h.target s.index
    have hlim : (s.tuners.get s.index).maxStep = none := h.limit s.index
    have hself : w.tuners s.index = t' := by rw [← hw]; simp [Shared.put]
    have hother : ∀ j, j ≠ s.index → w.tuners j = s.tuners.tuners j := by
      intro j hj
      rw [← hw]
      simp [Shared.put, Function.update_of_ne hj]
    have hv : (w.tuners 0).lastVoltage = s.expt := by
      by_cases h0 : s.index = 0
      · rw [h0] at hself
        rw [hself, m1]
      · rw [hother 0 (fun h => h0 h.symm)]
        exact h.gates hp (by omega)
    have hnew : ∀ c y, (c, y) ∈ rowReader.cols w s.index → RowMeasuredAt T outs K (w.tuners 0).lastVoltage c y := by
      intro c y hc
      rw [hv]
      rcases mem_cols hc with ⟨l, rfl, hm⟩ | ⟨l, rfl, hm⟩
      · rw [hself] at hm
        refine (m5 l y hm).imp_right ?_
        rintro ⟨p, vars, z, h1, h2, h3⟩
        rw [hT] at h3
        exact ⟨s.index, hl, z, ⟨p, vars, h1, h2⟩, h3⟩
      · rw [hself] at hm
        refine (m6 l y hm).imp_right ?_
        rintro ⟨p, vars, z, h1, h2, h3⟩
        rw [hT] at h3
        exact ⟨s.index, hl, z, ⟨p, vars, h1, h2⟩, h3⟩
    refine ⟨⟨?_, ?_, ?_, ?_, fun _ _ => hv, fun hc => by simp at hc, ?_⟩, ?_⟩
    · intro j
      by_cases hj : j = s.index
      · subst hj
        show (w.tuners s.index).solver.target = _
        rw [hself, m4, hT]
      · show (w.tuners j).solver.target = _
        rw [hother j hj]; exact h.target j
    · intro j
      by_cases hj : j = s.index
      · subst hj
        show (w.tuners s.index).maxStep = _
        rw [hself, m3, hlim]
      · show (w.tuners j).maxStep = _
        rw [hother j hj]; exact h.limit j
    · intro j
      by_cases hj : j = s.index
      · subst hj
        show (w.tuners s.index).queued = _
        rw [hself, m2]
      · show (w.tuners j).queued = _
        rw [hother j hj]; exact h.queued j
    · intro j hj hjK c y hc
      by_cases hji : j = s.index
      · subst hji
        exact hnew c y hc
      · have hc : (c, y) ∈ rowReader.cols s.tuners j := by
          rw [← cols_put_of_ne hji t', hw]; exact hc
        have := h.values j (by omega) hjK c y hc
        rw [h.gates hp (by omega)] at this
        show RowMeasuredAt T outs K (w.tuners 0).lastVoltage c y
        rw [hv]
        exact this
    · intro h0
      simp [hp] at h0
    · intro h0 j hjK c y hc
      by_cases hji : j = s.index
      · subst hji
        exact hnew c y hc
      · have hc : (c, y) ∈ rowReader.cols s.tuners j := by
          rw [← cols_put_of_ne hji t', hw]; exact hc
        exact .inl ((h.first h0).2.2 j c y hc)
  · -- a suggestion
    have hev : (rowReader.view (multiHierarchy I lstsq K outs) s).evaluated = s.index + 1 := by
      simp [Reader.view, View.evaluated, hst]
    have hev' : (rowReader.view (multiHierarchy I lstsq K outs) { s with
        tuners := w, pending := some v, status := false }).evaluated = s.index + 1 := by
      simp [Reader.view, View.evaluated]
    rw [hev] at h
    rw [hev']
    simp only [multiHierarchy, Prod.mk.injEq] at ht
    obtain ⟨hw, -⟩ := ht
    obtain ⟨m1, m2, m3, m4, m5, m6⟩ := nextVoltages_keeps I lstsq p (s.tuners.get s.index) (h.limit s.index)
    generalize (nextVoltages (Newton.solver I lstsq) p (s.tuners.get s.index)).1 = t' at *
    have hself : w.tuners s.index = t' := by rw [← hw]; simp [Shared.put]
    have hother : ∀ j, j ≠ s.index → w.tuners j = s.tuners.tuners j := by
      intro j hj
      rw [← hw]
      simp [Shared.put, Function.update_of_ne hj]
    have hv : ∀ j, (w.tuners j).lastVoltage = (s.tuners.tuners j).lastVoltage := by
      intro j
      by_cases hj : j = s.index
      · subst hj; rw [hself, m1]; rfl
      · rw [hother j hj]
    have hcols : ∀ j, rowReader.cols w j = rowReader.cols s.tuners j := by
      intro j
      by_cases hj : j = s.index
      · subst hj
        simp only [rowReader, hself, m2, m3, m6]
        rfl
      · rw [← hw]; exact cols_put_of_ne hj t'
    refine ⟨⟨?_, ?_, ?_, ?_, fun hc => by simp at hc, fun hc => by simp at hc, by simp⟩, ?_⟩
    · intro j
      by_cases hj : j = s.index
      · subst hj
        show (w.tuners s.index).solver.target = _
        rw [hself, m6]; exact h.target s.index
      · show (w.tuners j).solver.target = _
        rw [hother j hj]; exact h.target j
    · intro j
      by_cases hj : j = s.index
      · subst hj
        show (w.tuners s.index).maxStep = _
        rw [hself, m5]
      · show (w.tuners j).maxStep = _
        rw [hother j hj]; exact h.limit j
    · intro j
      by_cases hj : j = s.index
      · subst hj
        show (w.tuners s.index).queued = _
        rw [hself, m4]; exact h.queued s.index
      · show (w.tuners j).queued = _
        rw [hother j hj]; exact h.queued j
    · intro j hj hjK c y hc
      show RowMeasuredAt T outs K (w.tuners 0).lastVoltage c y
      rw [hv]
      exact h.values j hj hjK c y (by rw [← hcols]; exact hc)
    · intro h0
      have := (h.first h0).2.1
      rw [hst] at this
      cases this

open Classical in
/-- **C147**, part.  Tuners without maximal step size that have not been evaluated before: in the history to which the autotuner is appended
after each call of `iterate`, every value and every variance in a row is `NaN` or was reported by an evaluator while the
gates had the voltages of this row.  Missing: tuners with a maximal step size. -/
theorem rows_measured_partial {π : Type} (I : Newton.EstI X (Fin n)) (lstsq : Newton.Lstsq (Fin n)) (K : Nat)
    (outs : Nat → Volt (Fin n) → List Outcome) (path : Nat → π) (w : Shared X n) (x : Volt (Fin n))
    (hmax : ∀ i, (w.tuners i).maxStep = none ∧ (w.tuners i).queued = 0)
    (hnew : ∀ i, (∀ e ∈ (w.tuners i).lastValues, e.2 = none) ∧ ∀ e ∈ (w.tuners i).lastVariances, e.2 = none)
    (N : Nat) {s : Autotuner.State (Shared X n) (Volt (Fin n)) (Volt (Fin n))} {h : Hist (Volt (Fin n)) Quantity Val π}
    {evs : List (Autotuner.Event (Shared X n) (Volt (Fin n)) (List String))}
    (hr : recorded rowReader (multiHierarchy I lstsq K outs) path (fresh w x) N = .ok (s, h, evs)) :
    ∀ r ∈ h.rows, ∀ c y, (c, y) ∈ r.cells →
      RowMeasuredAt (fun i => (w.tuners i).solver.target) outs K r.voltages c y := by
  have key : ∀ N s h evs, recorded rowReader (multiHierarchy I lstsq K outs) path (fresh w x) N = .ok (s, h, evs) →
      (∃ b, (h.rows = [] → b = false) ∧ RowsInv (fun i => (w.tuners i).solver.target) outs K b s
        (rowReader.view (multiHierarchy I lstsq K outs) s).evaluated) ∧
      ∀ r ∈ h.rows, ∀ c y, (c, y) ∈ r.cells →
        RowMeasuredAt (fun i => (w.tuners i).solver.target) outs K r.voltages c y := by
    intro N
    induction N with
    | zero =>
      intro s h evs hr
      cases hr
      refine ⟨⟨false, fun _ => rfl, fun _ => rfl, fun i => (hmax i).1, fun i => (hmax i).2, ?_, ?_, fun _ => ⟨rfl, rfl, ?_⟩,
        fun h => by simp [fresh] at h⟩, by simp [Hist.empty]⟩
      · intro i hi
        simp [fresh, Reader.view, View.evaluated] at hi
      · intro _ hi
        simp [fresh, Reader.view, View.evaluated] at hi
      · intro i c y hc
        rcases mem_cols hc with ⟨l, -, hm⟩ | ⟨l, -, hm⟩
        · exact (hnew i).1 _ hm
        · exact (hnew i).2 _ hm
    | succ N ih =>
      intro s h evs hr
      unfold recorded at hr
      split at hr
      · cases hr
      · rename_i s1 h1 evs1 hr1
        obtain ⟨⟨b, hb, hi⟩, hg⟩ := ih _ _ _ hr1
        split at hr
        · cases hr
        · rename_i s2 evs2 hit
          split at hr
          · cases hr
          · rename_i h2 hap
            cases hr
            obtain ⟨j1, j2⟩ := rows_step hi hit
            obtain ⟨k1, k2⟩ := append_cells (RowMeasuredAt (fun i => (w.tuners i).solver.target) outs K) hap hg
              (fun i hi hiK => j1.values i hi hiK) (fun h0 i hiK c y hc => j2 (hb h0) i hiK c y hc)
            exact ⟨⟨true, fun h => absurd h k1, j1⟩, k2⟩
  exact (key N s h evs hr).2

/-! ### Maximal step size -/

theorem recorded_row {π : Type} {W Y V P C γ κ ρ : Type} [DecidableEq γ] {R : Reader W γ κ ρ} {H : Autotuner.Hierarchy W Y V P C}
    {path : Nat → π} {w : W} {x : Y} : ∀ (N : Nat) (s : Autotuner.State W Y V) (h : Hist γ κ ρ π)
    (evs : List (Autotuner.Event W V P)), recorded R H path (fresh w x) N = .ok (s, h, evs) →
    (N = 0 ∧ h = Hist.empty) ∨ ∃ rs r k, h.rows = rs ++ [r] ∧ r.voltages = R.lastVoltages s.tuners ∧
      r.tunerIndex = some k := by
  intro N
  induction N with
  | zero =>
    intro s h evs hr
    cases Except.ok.inj hr
    exact .inl ⟨rfl, rfl⟩
  | succ m ih =>
    intro s h evs hr
    unfold recorded at hr
    split at hr
    · cases hr
    · rename_i s₁ h₁ evs₁ hr₁
      split at hr
      · cases hr
      · rename_i s₂ evs₂ hit
        obtain ⟨h', e1, e2⟩ := weak_step (path m) ((ih _ _ _ hr₁).imp_left And.right) hit
        rw [e1] at hr
        cases Except.ok.inj hr
        exact .inr e2

theorem recorded_succ {π : Type} {W Y V P C γ κ ρ : Type} [DecidableEq γ] {R : Reader W γ κ ρ} {H : Autotuner.Hierarchy W Y V P C}
    {path : Nat → π} {s₀ : Autotuner.State W Y V} {N : Nat} {s s' : Autotuner.State W Y V} {h h' : Hist γ κ ρ π}
    {evs evs' : List (Autotuner.Event W V P)} (hr : recorded R H path s₀ N = .ok (s, h, evs))
    (hs : iterate H (.ok ()) s = (s', evs', .ok ())) (ha : append h (R.view H s') (path N) = .ok h') :
    recorded R H path s₀ (N + 1) = .ok (s', h', evs ++ evs') := by
  unfold recorded
  rw [hr]
  dsimp only
  rw [hs]
  dsimp only
  rw [ha]

open Classical in
/-- **C147** is false for tuners with a maximal step size.  Whenever the first tuner, while it is not tuned, suggests
voltages `v` that are only the first of several steps (`queued ≠ 0`), the row that is added for `v` three calls later
contains the numbers that were measured at the voltages before.  So the history is wrong whenever the evaluators report anything
else at `v`. -/
theorem rows_measured_refuted {π : Type} (I : Newton.EstI X (Fin n)) (lstsq : Newton.Lstsq (Fin n)) (hK : 0 < K)
    (outs : Nat → Volt (Fin n) → List Outcome) (path : Nat → π) (w : Shared X n) (x : Volt (Fin n)) (N : Nat)
    {s : Autotuner.State (Shared X n) (Volt (Fin n)) (Volt (Fin n))} {h : Hist (Volt (Fin n)) Quantity Val π}
    {evs : List (Autotuner.Event (Shared X n) (Volt (Fin n)) (List String))}
    (hr : recorded rowReader (multiHierarchy I lstsq K outs) path (fresh w x) (N + 1) = .ok (s, h, evs))
    (hi : s.index = 0) (hst : s.status = true) (hp : s.pending = none) {t : OneTuner X n} {v : Volt (Fin n)}
    (ht : nextVoltages (Newton.solver I lstsq)
      (Naming.tunedParameters ((List.range K).map fun j => (s.tuners.tuners j).solver.target) 0) (s.tuners.get 0) = (t, .ok v))
    (hq : t.queued ≠ 0) (hv : v ≠ (s.tuners.tuners 0).lastVoltage) (hnan : ∀ i, v i ≠ none) :
    ∃ s' h' evs', recorded rowReader (multiHierarchy I lstsq K outs) path (fresh w x) (N + 4) = .ok (s', h', evs') ∧
      s'.expt = v ∧ ∃ r, h'.rows.getLast? = some r ∧ r.voltages = v ∧ r.cells = rowReader.cols s.tuners 0 := by
  obtain ⟨k1, k2, k3, k4⟩ := nextVoltages_reads I lstsq
    (Naming.tunedParameters ((List.range K).map fun j => (s.tuners.tuners j).solver.target) 0) (s.tuners.get 0)
  rw [ht] at k1 k2 k3 k4
  dsimp only at k1 k2 k3 k4
  obtain ⟨w0, x0, i0, st0, p0⟩ := s
  dsimp only at hi hst hp ht hv k1 k2 k3 k4 ⊢
  subst hi hst hp
  -- the suggestion
  obtain ⟨ev1, it1⟩ : ∃ ev, iterate (multiHierarchy I lstsq K outs) (.ok ()) (⟨w0, x0, 0, true, none⟩ : Autotuner.State _ _ _) =
      (⟨w0.put 0 t, x0, 0, false, some v⟩, ev, .ok ()) := by
    simp only [iterate, multiHierarchy, isComplete]
    simp [hK.ne, hK.ne', ht, finish]
  -- the voltages are set
  obtain ⟨ev2, it2⟩ : ∃ ev, iterate (multiHierarchy I lstsq K outs) (.ok ())
      (⟨w0.put 0 t, x0, 0, false, some v⟩ : Autotuner.State _ _ _) =
      (⟨w0.put 0 t, v, 0, false, none⟩, ev, .ok ()) := by
    simp only [iterate, multiHierarchy, isComplete]
    simp [hK.ne, hnan, finish]
  -- no evaluation
  obtain ⟨ev3, it3⟩ : ∃ ev, iterate (multiHierarchy I lstsq K outs) (.ok ())
      (⟨w0.put 0 t, v, 0, false, none⟩ : Autotuner.State _ _ _) =
      (⟨(w0.put 0 t).put 0 { t with lastVoltage := v, solver := { t.solver with pos := v } }, v, 0, true, none⟩, ev, .ok ()) := by
    have : (w0.put 0 t).get 0 = t := by rw [get_put]; simp
    simp only [iterate, multiHierarchy, isComplete]
    simp [hK.ne, hK.ne', this, isTuned, hq, finish, Newton.solver]
  rcases recorded_row _ _ _ _ hr with ⟨h0, -⟩ | ⟨rs, r, k, e1, e2, e3⟩
  · simp at h0
  have hv0 : rowReader.lastVoltages (w0.put 0 t) = (w0.tuners 0).lastVoltage := by
    simp [rowReader, Shared.put, k1, Shared.get]
  have e2 : r.voltages = (w0.tuners 0).lastVoltage := e2
  obtain ⟨h1, rs1, r1, j1, a1, a2, a3, a4, -⟩ := append_ok (a := rowReader.view (multiHierarchy I lstsq K outs)
    (⟨w0.put 0 t, x0, 0, false, some v⟩ : Autotuner.State _ _ _)) (path (N + 1)) e1 e3
    (fun hne => absurd (e2.trans hv0.symm) hne)
  have a3 : r1.voltages = (w0.tuners 0).lastVoltage := a3.trans hv0
  obtain ⟨h2, rs2, r2, j2, b1, b2, b3, b4, -⟩ := append_ok (a := rowReader.view (multiHierarchy I lstsq K outs)
    (⟨w0.put 0 t, v, 0, false, none⟩ : Autotuner.State _ _ _)) (path (N + 2)) a2 a4
    (fun hne => absurd (a3.trans hv0.symm) hne)
  have b3 : r2.voltages = (w0.tuners 0).lastVoltage := b3.trans hv0
  generalize hw3 : (w0.put 0 t).put 0 { t with lastVoltage := v, solver := { t.solver with pos := v } } = w3 at it3
  have hv3 : rowReader.lastVoltages w3 = v := by rw [← hw3]; simp [rowReader, Shared.put]
  have hc3 : rowReader.cols w3 0 = rowReader.cols w0 0 := by
    rw [← hw3]
    simp [rowReader, Shared.put, k2, k3, k4, Shared.get]
  obtain ⟨h3, rs3, r3, j3, c1, c2, c3, c4, c5⟩ := append_ok (a := rowReader.view (multiHierarchy I lstsq K outs)
    (⟨w3, v, 0, true, none⟩ : Autotuner.State _ _ _)) (path (N + 3)) b2 b4
    (fun _ => by simp [Reader.view, View.evaluated])
  have q1 := recorded_succ hr it1 a1
  have q2 := recorded_succ q1 it2 b1
  have q3 := recorded_succ q2 it3 c1
  refine ⟨_, _, _, q3, rfl, r3, by rw [c2]; simp, c3.trans hv3, ?_⟩
  rcases c5 with ⟨c5, -⟩ | ⟨-, c5⟩
  · exact absurd (hv3.symm.trans (c5.symm.trans b3)) hv
  · rw [c5, ← hc3]
    have : slice (rowReader.view (multiHierarchy I lstsq K outs)
        (⟨w3, v, 0, true, none⟩ : Autotuner.State _ _ _)).tuners 0 1 = [rowReader.cols w3 0] := by
      exact slice_one _ hK
    have hev : (rowReader.view (multiHierarchy I lstsq K outs)
        (⟨w3, v, 0, true, none⟩ : Autotuner.State _ _ _)).evaluated = 1 := rfl
    unfold newRow
    rw [hev, this]
    simp [History.columns]

/-! ### One gate, one parameter

The parameter is the voltage, the set point is 10 and the gradient is known to be 1. -/

/-- Estimators that know the gradient. -/
def knownI : Newton.EstI Unit (Fin 1) where
  estimate := fun _ => some fun _ => some 1
  require := fun _ _ e => (e, .ok none)
  update := fun _ _ _ e => (e, .ok ())

/-- The step for one gate with gradient 1. -/
def oneStep : Newton.Lstsq (Fin 1) := fun _ _ d => some fun _ => some (d.headD 0)

/-- The evaluator reports the voltage. -/
def voltageOuts (_ : Nat) (v : Volt (Fin 1)) : List Outcome := [.ok ([("y", v 0)], [("y", some 1)])]

/-- A tuner with maximal step size `m`. -/
def oneShared (m : Val) : Shared Unit 1 where
  tuners := fun _ => ⟨⟨[⟨"y", some 10, none, none, some 1, none, some 1⟩], [], [0], fun _ => none, [("y", none)]⟩,
    [], fun _ => none, [("y", none)], [("y", none)], false, [], m, 5, 0⟩
  ests := [()]

/-- The tuner after the first evaluation at 0. -/
def oneTuner (m : Val) : OneTuner Unit 1 :=
  ⟨⟨[⟨"y", some 10, none, none, some 1, none, some 1⟩], [()], [0], fun _ => some 0, [("y", some 0)]⟩,
    [], fun _ => some 0, [("y", some 0)], [("y", some 1)], false, [fun _ => some 0], m, 5, 0⟩

theorem one_evaluation (m : Val) : isTuned (Newton.solver knownI oneStep) (voltageOuts 0 fun _ => some 0) (fun _ => some 0)
    ((oneShared m).get 0) = (oneTuner m, .ok false) := by
  simp [isTuned, oneShared, Shared.get, evaluate, voltageOuts, collect, Series.select, Newton.solver, Target.names,
    Series.index, Series.val, rescaleValues, rescaleVariances, factor, Target.row?, Newton.update, Newton.feed, knownI,
    Val.div, Val.mul, WithinTolerance, Val.abs, Val.sub, oneTuner]

open Classical in
theorem one_recorded (m : Val) : ∃ h evs, recorded rowReader (multiHierarchy knownI oneStep 1 voltageOuts) id
    (fresh (oneShared m) fun _ => some 0) 1 = .ok (⟨(oneShared m).put 0 (oneTuner m), fun _ => some 0, 0, true, none⟩, h, evs) ∧
    ∃ r, h.rows = [r] ∧ (Quantity.value "y", some 0) ∈ r.cells := by
  obtain ⟨ev, it⟩ : ∃ ev, iterate (multiHierarchy knownI oneStep 1 voltageOuts) (.ok ()) (fresh (oneShared m) fun _ => some 0) =
      (⟨(oneShared m).put 0 (oneTuner m), fun _ => some 0, 0, true, none⟩, ev, .ok ()) := by
    simp [iterate, multiHierarchy, isComplete, fresh, one_evaluation, finish]
  obtain ⟨h, e1, -, r, e2, -⟩ := append_first (π := Nat) (a := rowReader.view (multiHierarchy knownI oneStep 1 voltageOuts)
    (⟨(oneShared m).put 0 (oneTuner m), fun _ => some 0, 0, true, none⟩ : Autotuner.State _ _ _)) (p := id 0)
  refine ⟨h, _, recorded_succ (N := 0) rfl it e1, r, e2, ?_⟩
  simp [append, Hist.empty, firstRow, stay, Reader.view, View.evaluated, Row.update] at e1
  cases e1
  cases e2
  simp only [rowReader, History.columns, oneTuner, Shared.put, List.mem_append, List.mem_flatten, List.mem_reverse]
  right
  refine ⟨_, List.mem_map.2 ⟨0, List.mem_range.2 one_pos, rfl⟩, ?_⟩
  simp [hasSetPoint]

/-- Without maximal step size: a run that satisfies the hypotheses, and a number in its history. -/
example : ∃ s h evs, recorded rowReader (multiHierarchy knownI oneStep 1 voltageOuts) id
    (fresh (oneShared none) fun _ => some 0) 1 = .ok (s, h, evs) ∧
    (∀ r ∈ h.rows, ∀ c y, (c, y) ∈ r.cells →
      RowMeasuredAt (fun i => ((oneShared none).tuners i).solver.target) voltageOuts 1 r.voltages c y) ∧
    ∃ r ∈ h.rows, (Quantity.value "y", some 0) ∈ r.cells := by
  obtain ⟨h, evs, h1, r, h2, h3⟩ := one_recorded none
  exact ⟨_, h, evs, h1, rows_measured_partial knownI oneStep 1 voltageOuts id _ _ (fun _ => ⟨rfl, rfl⟩)
    (fun _ => ⟨by simp [oneShared], by simp [oneShared]⟩) 1 h1, r, by simp [h2], h3⟩

theorem one_suggestion : nextVoltages (Newton.solver knownI oneStep) [] (oneTuner (some 1)) =
    ({ oneTuner (some 1) with queued := 4 }, .ok fun _ => some 1) := by
  have hs : Real.sqrt (10 ^ 2 : ℝ) = 10 := Real.sqrt_sq (by norm_num)
  have ht : toInt 10 = 10 := by
    rw [toInt, if_pos (by norm_num)]
    exact_mod_cast Int.floor_intCast (R := ℝ) 10
  have hstep : (vsub (overlay (fun _ => some 0) fun i => if i = 0 then some (some 10) else none) fun _ => some 0 :
      Volt (Fin 1)) = fun _ => some 10 := by
    funext i
    simp [Subsingleton.elim i 0, vsub, overlay, Val.sub]
  have hnorm : Tuner.norm (fun _ => some 10 : Volt (Fin 1)) = some 10 := by simp [Tuner.norm, hs]
  simp [nextVoltages, oneTuner, Newton.solver, Newton.suggest, Newton.tunedJacobian, Newton.ask, knownI, Newton.newtonStep,
    Newton.concat, Newton.requiredDiff, oneStep, Series.val, Tuner.slice, Val.add, hstep, hnorm, ht]
  funext i
  simp [vadd, smul, Val.mul, Val.add]

/-- With maximal step size 1: the second row has the voltage 1, at which the evaluator reports 1, and the value 0. -/
example : ∃ s h evs, recorded rowReader (multiHierarchy knownI oneStep 1 voltageOuts) id
    (fresh (oneShared (some 1)) fun _ => some 0) 4 = .ok (s, h, evs) ∧
    ∃ r, h.rows.getLast? = some r ∧ r.voltages = (fun _ => some 1) ∧ (Quantity.value "y", some 0) ∈ r.cells ∧
      ¬ RowMeasuredAt (fun i => ((oneShared (some 1)).tuners i).solver.target) voltageOuts 1 r.voltages (.value "y") (some 0) := by
  obtain ⟨h, evs, h1, -⟩ := one_recorded (some 1)
  obtain ⟨s, h', evs', h2, -, r, h3, h4, h5⟩ := rows_measured_refuted knownI oneStep one_pos voltageOuts id _ _ 0 h1 rfl rfl rfl
    (t := { oneTuner (some 1) with queued := 4 }) (v := fun _ => some 1)
    (by rw [get_put, if_pos rfl, ← one_suggestion]; rfl) (by simp) (fun h => by
      have := congrFun h 0
      simp [Shared.put, oneTuner] at this) (by simp)
  refine ⟨s, h', evs', h2, r, h3, h4, ?_, ?_⟩
  · rw [h5]
    simp [rowReader, Shared.put, oneTuner, hasSetPoint]
  · rw [h4]
    rintro (h | ⟨i, -, z, ⟨p, vars, hm, hz⟩, he⟩)
    · cases h
    · simp only [voltageOuts, List.mem_singleton, Except.ok.injEq, Prod.mk.injEq] at hm
      obtain ⟨rfl, rfl⟩ := hm
      simp only [List.mem_singleton, Prod.mk.injEq, true_and] at hz
      subst hz
      simp [oneShared, factor, Target.row?, Val.div] at he

end Qtune.EndToEnd
