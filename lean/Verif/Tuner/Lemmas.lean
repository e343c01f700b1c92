import Verif.Tuner.Model
import Mathlib.Tactic.Linarith
import Mathlib.Tactic.FieldSimp
import Mathlib.Tactic.Ring
import Mathlib.Tactic.NormNum
import Mathlib.Tactic.Positivity
import Mathlib.Algebra.Order.Archimedean.Basic
import Mathlib.Algebra.BigOperators.Ring.Finset
import Mathlib.Algebra.Order.BigOperators.Ring.Finset

/-! # Helper lemmas about tuners -/

namespace Qtune

theorem Target.row?_of_mem {T : Target} (hn : T.names.Nodup) {r : Row} (hr : r ∈ T) :
    T.row? r.name = some r := by
  unfold Target.row?
  induction T with
  | nil => simp at hr
  | cons a t ih =>
    simp only [Target.names, List.map_cons, List.nodup_cons] at hn
    rcases List.mem_cons.1 hr with rfl | h
    · simp
    · have : a.name ≠ r.name := fun e => hn.1 (e ▸ List.mem_map_of_mem h)
      rw [List.find?_cons_of_neg (by simpa using this)]
      exact ih hn.2 h

theorem Target.mem_names {T : Target} {r : Row} (hr : r ∈ T) : r.name ∈ T.names :=
  List.mem_map_of_mem hr

namespace Tuner

variable {S ι : Type}

theorem evaluate_ok {T : Target} {outs : List Outcome} {p vars : Series}
    (h : evaluate T outs = .ok (p, vars)) :
    ∃ p₀ v₀, collect outs = .ok (p₀, v₀) ∧ p = T.names.map (fun l => (l, p₀.val l)) ∧
      vars = T.names.map (fun l => (l, v₀.val l)) := by
  unfold evaluate at h
  split at h
  · cases h
  · rename_i p₀ v₀ hc
    split at h
    · cases h
    · rename_i p' hp
      split at h
      · cases h
      · rename_i v' hv
        cases h
        exact ⟨p₀, v₀, hc, Series.select_ok hp, Series.select_ok hv⟩

theorem rescaleValues_map (T : Target) (labels : List String) (f : String → Val) :
    rescaleValues T (labels.map fun l => (l, f l)) =
      labels.map fun l => (l, Val.div (f l) (factor T l)) := by
  simp [rescaleValues, Function.comp_def]

/-- Value of a parameter after evaluation and rescaling. -/
theorem val_rescaled {T : Target} (hn : T.names.Nodup) {r : Row} (hr : r ∈ T) (p₀ : Series) :
    Series.val (rescaleValues T (T.names.map fun l => (l, p₀.val l))) r.name =
      Val.div (p₀.val r.name) r.rescaling := by
  rw [rescaleValues_map, Series.val_map_mk, if_pos (Target.mem_names hr), factor,
    Target.row?_of_mem hn hr]

/-- Sufficient condition for `True`: the labels are known, the relevant parameters are
measured, and every row passes the comparison. -/
theorem is_tuned_true_of (I : SolverI S ι) (outs : List Outcome) (v : Volt ι)
    (t : SubsetTuner S ι) (hn : (I.target t.solver).names.Nodup) (hq : t.queued = 0)
    (hne : I.target t.solver ≠ [])
    (hidx : t.lastValues.index ⊆ (I.target t.solver).names)
    (p vars : Series) (hc : collect outs = .ok (p, vars))
    (hvars : ∀ r ∈ I.target t.solver, vars.lookup r.name ≠ none)
    (hp : ∀ r ∈ I.target t.solver, p.lookup r.name ≠ none)
    (hmeas : ∀ r ∈ I.target t.solver, r.name ∈ t.lastValues.index →
      (Val.div (p.val r.name) r.rescaling).isSome)
    (htol : ∀ r ∈ I.target t.solver, WithinTolerance r (Val.div (p.val r.name) r.rescaling))
    (hupd : ∀ p' v', (I.update v p' v' t.solver).2 = .ok ()) :
    ∃ t', isTuned I outs v t = (t', .ok true) ∧ t'.tunedVoltages = t.tunedVoltages ++ [v] ∧
      t'.evaluatable = t.evaluatable ++ [v] ∧ t'.lastFailed = false := by
  set T := I.target t.solver with hT
  -- some label of the target is known to both series
  have hsel : ∀ s : Series, (∀ r ∈ T, s.lookup r.name ≠ none) →
      s.select T.names = .ok (T.names.map fun l => (l, s.val l)) := by
    intro s hs
    unfold Series.select
    rw [if_neg]
    rintro ⟨-, hall⟩
    obtain ⟨r, hr⟩ := List.exists_mem_of_ne_nil _ hne
    rw [List.all_eq_true] at hall
    have := hall r.name (Target.mem_names hr)
    exact hs r hr (by simpa using this)
  have hev : evaluate T outs = .ok (T.names.map (fun l => (l, p.val l)),
      T.names.map (fun l => (l, vars.val l))) := by
    simp only [evaluate, hc, hsel p hp, hsel vars hvars]
  have hsub : ∀ (f : String → Val) (idx : List String), idx ⊆ T.names →
      Series.select (T.names.map fun l => (l, f l)) idx =
        .ok (idx.map fun l => (l, f l)) := by
    intro f idx hidx
    unfold Series.select
    rw [if_neg]
    · congr 1
      apply List.map_congr_left
      intro l hl
      rw [Series.val_map_mk, if_pos (hidx hl)]
    · rintro ⟨hne', hall⟩
      obtain ⟨l, hl⟩ := List.exists_mem_of_ne_nil _ hne'
      rw [List.all_eq_true] at hall
      have := hall l hl
      rw [Series.lookup_map_mk, if_pos (hidx hl)] at this
      simp at this
  have hrv : ∀ (labels : List String) (f : String → Val),
      rescaleVariances T (labels.map fun l => (l, f l)) =
        labels.map fun l => (l, Val.div (f l) (Val.mul (factor T l) (factor T l))) := by
    intro labels f; simp [rescaleVariances, Function.comp_def]
  unfold isTuned
  simp only [hq, ne_eq, not_true_eq_false, if_false]
  rw [← hT, hev]
  simp only [rescaleValues_map, hrv]
  rw [hsub _ _ hidx]
  simp only
  rw [Series.index_map_mk, hsub _ _ hidx]
  simp only
  have hknown : ∀ r ∈ T, r.name ∈ t.lastValues.index →
      (Val.div (p.val r.name) (factor T r.name)).isSome := by
    intro r hr hmem
    rw [factor, Target.row?_of_mem hn hr]; exact hmeas r hr hmem
  rw [if_neg]
  swap
  · intro hany
    rw [List.any_eq_true] at hany
    obtain ⟨e, he, hnone⟩ := hany
    obtain ⟨l, hl, rfl⟩ := List.mem_map.1 he
    obtain ⟨r, hr, rfl⟩ := List.mem_map.1 (hidx hl)
    have := hknown r hr hl
    simp at hnone
    simp [hnone] at this
  rcases hu : I.update v (List.map (fun l => (l, Val.div (p.val l) (factor T l))) T.names)
      (List.map (fun l => (l, Val.div (vars.val l) (Val.mul (factor T l) (factor T l)))) T.names)
      t.solver with ⟨s, r⟩
  have hr' := hupd (List.map (fun l => (l, Val.div (p.val l) (factor T l))) T.names)
      (List.map (fun l => (l, Val.div (vars.val l) (Val.mul (factor T l) (factor T l)))) T.names)
  rw [hu] at hr'
  simp only at hr'
  subst hr'
  simp only
  rw [if_pos]
  · exact ⟨_, rfl, rfl, rfl, rfl⟩
  · intro r hr
    rw [val_rescaled hn hr]
    exact htol r hr

end Tuner
end Qtune
