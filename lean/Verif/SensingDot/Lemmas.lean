import Verif.SensingDot.Model

/-! # Helper lemmas about the sensing dot tuner -/

namespace Qtune.SensingDot

open Qtune.Tuner

variable {S ι : Type}

theorem mem_sortIndex {s : Series} {e : String × Val} : e ∈ sortIndex s ↔ e ∈ s := by
  simp [sortIndex, List.mem_mergeSort]

theorem mem_rescale {T : Target} {s : Series} {e : String × Val} :
    e ∈ rescaleValues T (sortIndex s) ↔
      ∃ x, (e.1, x) ∈ s ∧ e.2 = Val.div x (factor T e.1) := by
  obtain ⟨l, y⟩ := e
  simp only [rescaleValues, List.mem_map, mem_sortIndex, Prod.exists, Prod.mk.injEq]
  constructor
  · rintro ⟨a, b, h, rfl, rfl⟩; exact ⟨b, h, rfl⟩
  · rintro ⟨x, h, rfl⟩; exact ⟨l, x, h, rfl, rfl⟩

theorem mem_index_rescale {T : Target} {s : Series} {l : String} :
    l ∈ Series.index (rescaleValues T (sortIndex s)) ↔ l ∈ s.index := by
  simp [rescaleValues, Series.index, mem_sortIndex]

theorem mem_index_rescaleVar {T : Target} {s : Series} {l : String} :
    l ∈ Series.index (rescaleVariances T (sortIndex s)) ↔ l ∈ s.index := by
  simp [rescaleVariances, Series.index, mem_sortIndex]

theorem lookup_isSome_of_mem {s : Series} {l : String} (h : l ∈ s.index) :
    (s.lookup l).isSome := by
  induction s with
  | nil => simp [Series.index] at h
  | cons a t ih =>
    rw [List.lookup_cons]
    by_cases hl : l = a.1
    · simp [hl]
    · have : l ∈ Series.index t := by
        simpa [Series.index, hl] using h
      simp [beq_eq_false_iff_ne.2 hl, ih this]

theorem assign_ok {s p : Series} (h : ∀ l ∈ p.index, l ∈ s.index) :
    ∃ s', assign s p = .ok s' ∧ s'.index = s.index := by
  unfold assign
  rw [if_pos]
  · exact ⟨_, rfl, by simp [Series.index, Function.comp_def]⟩
  · rw [List.all_eq_true]
    intro e he
    simpa using h _ (List.mem_map_of_mem he)

theorem assignVariances_ok {s p v : Series} (h : ∀ l ∈ p.index, l ∈ s.index)
    (hv : ∀ l ∈ p.index, l ∈ v.index) : ∃ s', assignVariances s p v = .ok s' ∧ s'.index = s.index := by
  unfold assignVariances
  have : v.select p.index = .ok (p.index.map fun l => (l, v.val l)) := by
    unfold Series.select
    rw [if_neg]
    rintro ⟨hne, hall⟩
    obtain ⟨l, hl⟩ := List.exists_mem_of_ne_nil _ hne
    have h1 := lookup_isSome_of_mem (hv l hl)
    rw [List.all_eq_true] at hall
    have h2 := hall l hl
    cases hx : List.lookup l v <;> simp [hx] at h1 h2
  rw [this]
  exact assign_ok (by rw [Series.index_map_mk]; exact h)

end Qtune.SensingDot
