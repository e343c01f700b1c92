import Verif.History.ClashModel
import Verif.History.GapProps
import Mathlib.Data.List.Nodup
import Mathlib.Data.List.Flatten

/-!
# C185: parameters that belong to several tuners
-/

namespace Qtune.History

variable {γ κ ρ π W X V P C : Type} [DecidableEq γ]

/-! ### Specification -/

/-- A tuner records a parameter: one with a set point for a `SubsetTuner`, one with a value for other tuners. -/
def Recording.Records (p : String) : Recording → Prop
  | .subset desired => ∃ x : ℝ, (p, some x) ∈ desired
  | .other measured => ∃ v, (p, v) ∈ measured

/-- Two tuners record the same parameter. -/
def Shared (l : List Recording) : Prop :=
  ∃ i j : Nat, i < j ∧ ∃ a b : Recording, l[i]? = some a ∧ l[j]? = some b ∧ ∃ p, a.Records p ∧ b.Records p

/-- No parameter is twice in the index of a target, or among the values of a tuner. -/
def Recording.Unique : Recording → Prop
  | .subset desired => desired.index.Nodup
  | .other measured => measured.index.Nodup

/-- Every tuner has every parameter once, and no two record the same. -/
def Distinct (l : List Recording) : Prop := (∀ a ∈ l, a.Unique) ∧ ¬ Shared l

/-! ### Lemmas -/

theorem mem_names {a : Recording} {p : String} : p ∈ a.names ↔ a.Records p := by
  cases a with
  | subset d =>
    simp only [Recording.names, Recording.Records, List.mem_map, List.mem_filter, Option.isSome_iff_exists]
    constructor
    · rintro ⟨⟨q, v⟩, ⟨h1, x, h2⟩, rfl⟩
      exact ⟨x, by rw [← h2]; exact h1⟩
    · rintro ⟨x, h⟩
      exact ⟨_, ⟨h, x, rfl⟩, rfl⟩
  | other m =>
    simp only [Recording.names, Recording.Records, List.mem_map]
    constructor
    · rintro ⟨⟨q, v⟩, h1, rfl⟩
      exact ⟨v, h1⟩
    · rintro ⟨v, h⟩
      exact ⟨_, h, rfl⟩

theorem names_nodup {a : Recording} (h : a.Unique) : a.names.Nodup := by
  cases a with
  | subset d => exact List.Nodup.sublist (List.Sublist.map _ List.filter_sublist) h
  | other m => exact h

theorem repeated_of_shared {l : List Recording} (h : Shared l) : repeated l = true := by
  obtain ⟨i, j, hij, a, b, ha, hb, p, pa, pb⟩ := h
  simp only [repeated, Bool.not_eq_true', decide_eq_false_iff_not]
  intro hn
  have := (List.nodup_flatten.1 hn).2
  rw [List.pairwise_map] at this
  obtain ⟨hi, rfl⟩ := List.getElem?_eq_some_iff.1 ha
  obtain ⟨hj, rfl⟩ := List.getElem?_eq_some_iff.1 hb
  exact (List.pairwise_iff_getElem.1 this i j hi hj hij) (mem_names.2 pa) (mem_names.2 pb)

theorem not_repeated_of_distinct {l : List Recording} (h : Distinct l) : repeated l = false := by
  simp only [repeated, Bool.not_eq_false', decide_eq_true_eq]
  refine List.nodup_flatten.2 ⟨fun x hx => ?_, ?_⟩
  · obtain ⟨a, ha, rfl⟩ := List.mem_map.1 hx
    exact names_nodup (h.1 a ha)
  · rw [List.pairwise_map, List.pairwise_iff_getElem]
    intro i j hi hj hij p pa pb
    exact h.2 ⟨i, j, hij, l[i], l[j], List.getElem?_eq_getElem hi, List.getElem?_eq_getElem hj, p, mem_names.1 pa, mem_names.1 pb⟩

theorem repeated_slice {l : List Recording} (h : repeated l = false) (i j : Nat) : repeated (slice l i j) = false := by
  simp only [repeated, Bool.not_eq_false', decide_eq_true_eq] at h ⊢
  refine List.Nodup.sublist ?_ h
  refine List.Sublist.flatten (List.Sublist.map _ ?_)
  exact (List.drop_sublist _ _).trans (List.take_sublist _ _)

theorem appendC_of_distinct (h : Hist γ κ ρ π) (a : CView γ κ ρ) (p : π) (hd : repeated a.recordings = false) :
    appendC h a p = appendG h a.toGView p := by
  simp only [appendC, appendG, hd, repeated_slice hd, Bool.and_false, Bool.false_eq_true, if_false, and_false]
  rfl

theorem appendC_shared (paths : List π) (a : CView γ κ ρ) (p : π) (hs : repeated a.recordings = true) :
    (appendC (⟨[], paths⟩ : Hist γ κ ρ π) a p).1 = ⟨[], paths ++ [p]⟩ ∧ ∃ e, (appendC (⟨[], paths⟩ : Hist γ κ ρ π) a p).2 = .error e := by
  unfold appendC
  by_cases hk : a.known.any (!·) = true
  · simp [hk]
  · simp [hk, hs]

/-! ### Theorems -/

/-- **C185**, if no two tuners record the same parameter: a sequence of appends is the one of C138 (and of C60 and C61 if the gradients are
known).  Missing: `shared_parameter_refuted`. -/
theorem distinct_parameters_partial (l : List (CView γ κ ρ × π)) (hl : ∀ a ∈ l, Distinct a.1.recordings) (h : Hist γ κ ρ π) :
    appendsC h l = appendsG h (l.map fun a => (a.1.toGView, a.2)) := by
  induction l generalizing h with
  | nil => rfl
  | cons a l ih =>
    simp only [appendsC, appendsG, List.map_cons]
    rw [appendC_of_distinct h a.1 a.2 (not_repeated_of_distinct (hl a (by simp))), ih (fun b hb => hl b (by simp [hb]))]

/-- **C185** for a history that has entries: it suffices that no two tuners that have been evaluated record the same parameter.
Then the autotuner is appended as in C138. -/
theorem evaluated_distinct_partial (h : Hist γ κ ρ π) (hh : h.rows ≠ []) (a : CView γ κ ρ) (p : π)
    (hd : Distinct (a.recordings.take a.evaluated)) : appendC h a p = appendG h a.toGView p := by
  have h0 : ∀ i, repeated (slice a.recordings i a.evaluated) = false := fun i => by
    have h1 := not_repeated_of_distinct hd
    have h2 := repeated_slice h1 i a.evaluated
    unfold slice at h2 ⊢
    rwa [List.take_take, min_self] at h2
  have he : h.rows.isEmpty = false := by simpa using hh
  simp only [appendC, appendG, h0, he, Bool.false_and, Bool.false_eq_true, if_false, and_false]
  rfl

/-- **C185** is false: if two tuners of a hierarchy record the same parameter, the history stays empty, whatever the user does.  Every append
raises. -/
theorem shared_parameter_refuted (R : Reader W γ κ ρ) (known : W → Nat → Bool) (recordings : W → List Recording)
    (H : Autotuner.Hierarchy W X V P C) (hs : ∀ w, Shared (recordings w)) (s : Autotuner.State W X V) (l : List (Autotuner.Op X C × Option π)) :
    (session R known recordings H s (Hist.empty : Hist γ κ ρ π) l).2.1.rows = [] ∧
    ∀ o ∈ (session R known recordings H s (Hist.empty : Hist γ κ ρ π) l).2.2, ∃ e, o = .error e := by
  suffices h : ∀ (l : List (Autotuner.Op X C × Option π)) (s : Autotuner.State W X V) (paths : List π),
      (session R known recordings H s (⟨[], paths⟩ : Hist γ κ ρ π) l).2.1.rows = [] ∧
      ∀ o ∈ (session R known recordings H s (⟨[], paths⟩ : Hist γ κ ρ π) l).2.2, ∃ e, o = .error e from h l s []
  intro l
  induction l with
  | nil => intro s paths; simp [session]
  | cons a l ih =>
    intro s paths
    obtain ⟨op, path⟩ := a
    cases path with
    | none => exact ih _ _
    | some path =>
      obtain ⟨h1, e, h2⟩ := appendC_shared (γ := γ) (κ := κ) (ρ := ρ) paths
        (R.cview known recordings H (Autotuner.step H s op).1) path (repeated_of_shared (hs _))
      simp only [session]
      rw [h1]
      refine ⟨(ih _ _).1, fun o ho => ?_⟩
      rcases List.mem_cons.1 ho with rfl | ho
      · exact ⟨e, h2⟩
      · exact (ih _ _).2 o ho

/-- A coarse tuner and a fine tuner for the tunnel coupling: both record it. -/
example : Shared [.other [("tunnel_coupling", some 1)], .subset [("lead_time", none), ("tunnel_coupling", some 20)]] :=
  ⟨0, 1, by decide, _, _, rfl, rfl, "tunnel_coupling", ⟨some 1, by simp⟩, ⟨20, by simp⟩⟩

/-- Two tuners whose targets are tables with the same index and different entries do not record the same parameter. -/
example : Distinct [.subset [("lead_time", none), ("tunnel_coupling", some 20)], .subset [("lead_time", some 3), ("tunnel_coupling", none)]] := by
  refine ⟨by simp [Recording.Unique, Series.index], ?_⟩
  rintro ⟨i, j, hij, a, b, ha, hb, p, pa, pb⟩
  match i, j with
  | 0, 1 =>
    obtain rfl := Option.some.inj ha
    obtain rfl := Option.some.inj hb
    obtain ⟨x, pa⟩ := pa
    obtain ⟨y, pb⟩ := pb
    simp at pa pb
    rw [pa.1] at pb
    exact absurd pb.1 (by decide)
  | _, j + 2 => simp at hb
  | i + 1, 1 => omega
  | i, 0 => omega

/-- Two tuners for the tunnel coupling, of which only the first has been evaluated. -/
example : Distinct (List.take 1 [.other [("tunnel_coupling", some 1)], .subset [("tunnel_coupling", some 20)]]) := by
  refine ⟨by simp [Recording.Unique, Series.index], ?_⟩
  rintro ⟨i, j, hij, a, b, ha, hb, -⟩
  match i, j with
  | _, j + 1 => simp at hb
  | i, 0 => omega

end Qtune.History
