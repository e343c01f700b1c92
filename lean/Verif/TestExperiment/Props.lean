import Mathlib.Data.List.Sort
import Mathlib.Data.List.Perm.Basic
import Mathlib.Tactic.NormNum
import Verif.TestExperiment.Model

/-!
# C101: the simulated experiment
-/

namespace Qtune.TestExperiment

theorem lookup_assign (s : Series) (g : String) (x : Val) (l : String) :
    (assign s g x).lookup l = if l = g then some x else s.lookup l := by
  unfold assign
  split
  · rename_i hg
    induction s with
    | nil => simp [Series.index] at hg
    | cons p t ih =>
      obtain ⟨a, y⟩ := p
      by_cases hga : a = g
      · subst hga
        by_cases hl : l = a
        · subst hl; simp
        · have hrest : ∀ t : Series, List.lookup l (t.map fun p => if p.1 = a then (p.1, x) else p) =
              List.lookup l t := by
            intro t
            induction t with
            | nil => rfl
            | cons q t ih' =>
              obtain ⟨b, z⟩ := q
              by_cases hb : b = a
              · subst hb
                simp only [List.map_cons, if_true, List.lookup_cons,
                  beq_eq_false_iff_ne.2 hl]
                exact ih'
              · simp only [List.map_cons, if_neg hb, List.lookup_cons]
                rw [ih']
          simp only [List.map_cons, if_true, List.lookup_cons, beq_eq_false_iff_ne.2 hl,
            if_neg hl]
          exact hrest t
      · have hg' : g ∈ Series.index t := by
          simp only [Series.index, List.map_cons, List.mem_cons] at hg
          exact hg.resolve_left fun h => hga h.symm
        simp only [List.map_cons, if_neg hga, List.lookup_cons]
        rw [ih hg']
        by_cases hla : l = a
        · subst hla
          simp [hga]
        · simp [beq_eq_false_iff_ne.2 hla]
  · rename_i hg
    induction s with
    | nil =>
      by_cases hl : l = g
      · subst hl; simp
      · simp [List.lookup_cons, beq_eq_false_iff_ne.2 hl, hl]
    | cons p t ih =>
      obtain ⟨a, y⟩ := p
      simp only [Series.index, List.map_cons, List.mem_cons, not_or] at hg
      simp only [List.cons_append, List.lookup_cons]
      rw [ih hg.2]
      by_cases hla : l = a
      · subst hla
        simp [Ne.symm hg.1]
      · simp [beq_eq_false_iff_ne.2 hla]

theorem nodup_assign {s : Series} (h : s.index.Nodup) (g : String) (x : Val) :
    (assign s g x).index.Nodup := by
  unfold assign
  split
  · have : Series.index (s.map fun p => if p.1 = g then (p.1, x) else p) = s.index := by
      unfold Series.index
      rw [List.map_map]
      refine List.map_congr_left fun p _ => ?_
      simp only [Function.comp_def]
      split <;> rfl
    rw [this]; exact h
  · rename_i hg
    have : Series.index (s ++ [(g, x)]) = s.index ++ [g] := by simp [Series.index]
    rw [this, List.nodup_append]
    refine ⟨h, by simp, ?_⟩
    intro a ha b hb
    rw [List.mem_singleton.1 hb]
    exact fun he => hg (he ▸ ha)

theorem lookup_foldl (new : Series) (hn : new.index.Nodup) (v : Series) (l : String) :
    (new.foldl (fun v p => assign v p.1 p.2) v).lookup l =
      match new.lookup l with
      | some x => some x
      | none => v.lookup l := by
  induction new generalizing v with
  | nil => rfl
  | cons p t ih =>
    obtain ⟨a, x⟩ := p
    have ha : a ∉ Series.index t ∧ (Series.index t).Nodup := by
      simpa [Series.index, List.nodup_cons] using hn
    rw [List.foldl_cons, ih ha.2, lookup_assign, List.lookup_cons]
    by_cases hl : l = a
    · subst hl
      have : List.lookup l t = none := by
        rw [List.lookup_eq_none_iff]
        intro p hp
        have : l ≠ p.1 := fun h => ha.1 (h ▸ List.mem_map_of_mem hp)
        simpa using this
      simp [this]
    · simp [hl, beq_eq_false_iff_ne.2 hl]

theorem nodup_foldl (new : Series) {v : Series} (h : v.index.Nodup) :
    (new.foldl (fun v p => assign v p.1 p.2) v).index.Nodup := by
  induction new generalizing v with
  | nil => exact h
  | cons p t ih => exact ih (nodup_assign h p.1 p.2)

theorem lookup_perm {s t : Series} (hp : s.Perm t) (hs : s.index.Nodup) (l : String) :
    s.lookup l = t.lookup l := by
  have key : ∀ {u : Series}, u.index.Nodup → ∀ x, u.lookup l = some x ↔ (l, x) ∈ u := by
    intro u hu x
    induction u with
    | nil => simp
    | cons p t ih =>
      obtain ⟨a, y⟩ := p
      have ha : a ∉ Series.index t ∧ (Series.index t).Nodup := by
        simpa [Series.index, List.nodup_cons] using hu
      rw [List.lookup_cons]
      by_cases hl : l = a
      · subst hl
        have : (l, x) ∉ t := fun h => ha.1 (List.mem_map_of_mem h)
        simp only [beq_self_eq_true, List.mem_cons, this, or_false, Prod.mk.injEq, true_and,
          Option.some.injEq]
        exact eq_comm
      · simp only [beq_eq_false_iff_ne.2 hl, List.mem_cons, Prod.mk.injEq, hl, false_and,
          false_or]
        exact ih ha.2
  have ht : t.index.Nodup := (hp.map Prod.fst).nodup_iff.1 hs
  apply Option.ext
  intro x
  rw [key hs, key ht]
  exact hp.mem_iff

/-- C101: after `set_gate_voltages(new)` the simulated experiment reads the new voltages for
the gates of `new` (also for gates it did not have before), the old ones for all other
gates, and no other gates, sorted by name; the labels stay different from each other. -/
theorem read_after_set (s : State) (hs : s.voltages.index.Nodup) (new : Series)
    (hn : new.index.Nodup) :
    (read (set s new).1).index.Pairwise (fun a b => a < b) ∧
    ∀ l, (read (set s new).1).lookup l =
      match new.lookup l with
      | some x => some x
      | none => (read s).lookup l := by
  have hnd := nodup_foldl new hs
  have hperm : ∀ u : Series, (sortIndex u).Perm u := fun u => List.mergeSort_perm _ _
  constructor
  · have hle : (sortIndex (set s new).1.voltages).Pairwise fun a b => decide (a.1 ≤ b.1) = true := by
      apply List.pairwise_mergeSort
      · intro a b c h1 h2
        simp only [decide_eq_true_eq] at *
        exact le_trans h1 h2
      · intro a b
        simp only [Bool.or_eq_true, decide_eq_true_eq]
        exact le_total _ _
    have hnd' : (read (set s new).1).index.Nodup :=
      ((hperm _).map Prod.fst).nodup_iff.2 hnd
    unfold Series.index at hnd' ⊢
    rw [List.pairwise_map]
    rw [List.Nodup, List.pairwise_map] at hnd'
    refine (hle.and hnd').imp ?_
    rintro a b ⟨h1, h2⟩
    simp only [decide_eq_true_eq] at h1
    exact lt_of_le_of_ne h1 h2
  · intro l
    unfold read
    rw [← lookup_perm (hperm s.voltages).symm hs,
      ← lookup_perm (hperm (set s new).1.voltages).symm hnd]
    exact lookup_foldl new hn s.voltages l

example : Series.index [("b", some 1), ("a", none)] = ["b", "a"] ∧
    (Series.index [("b", some 1), ("a", none)]).Nodup := ⟨rfl, by decide⟩

/-- C102 is false: setting voltages changes the Series that the caller passed to the
constructor. -/
theorem initial_voltages_refuted :
    callersSeries (set (init [("a", some 0)]) [("a", some 1)]).1 ≠ [("a", some 0)] := by
  intro h
  have : (List.lookup "a" (callersSeries (set (init [("a", some 0)]) [("a", some 1)]).1)) =
      List.lookup "a" [("a", some 0)] := by rw [h]
  have h1 : (List.lookup "a" (callersSeries (set (init [("a", some 0)]) [("a", some 1)]).1)) =
      some (some 1) := lookup_foldl _ (by decide) _ _
  rw [h1] at this
  have h2 := Option.some.inj (Option.some.inj this)
  norm_num at h2

/-- C102, partial: gates that were never set keep their entry in the caller's Series, and
reading does not change it (`read` has no effect by its type). -/
theorem initial_voltages_partial (initial : Series) (calls : List Series)
    (hc : ∀ new ∈ calls, new.index.Nodup) (l : String)
    (hl : ∀ new ∈ calls, new.lookup l = none) :
    (callersSeries (calls.foldl (fun s new => (set s new).1) (init initial))).lookup l =
      initial.lookup l := by
  have key : ∀ (calls : List Series) (s : State), (∀ new ∈ calls, new.index.Nodup) →
      (∀ new ∈ calls, new.lookup l = none) →
      (callersSeries (calls.foldl (fun s new => (set s new).1) s)).lookup l =
        (callersSeries s).lookup l := by
    intro calls
    induction calls with
    | nil => intros; rfl
    | cons new t ih =>
      intro s hc hl
      rw [List.foldl_cons, ih _ (fun n hn => hc n (by simp [hn])) (fun n hn => hl n (by simp [hn]))]
      have := lookup_foldl new (hc new (by simp)) s.voltages l
      rw [hl new (by simp)] at this
      exact this
  exact key calls (init initial) hc hl

example : (∀ new ∈ [[("a", some (1 : ℝ))]], Series.index new = ["a"]) ∧
    List.lookup "b" [("a", some (1 : ℝ))] = none := by
  refine ⟨by simp [Series.index], rfl⟩

end Qtune.TestExperiment
