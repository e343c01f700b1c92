import Verif.Gui.ReloadProps
import Mathlib.Data.List.Chain

/-! # C139: the rows among which a reload window chooses -/

namespace Qtune.Gui.Reload

open Qtune.Autotuner

variable {W X V P C : Type}

open Classical in
theorem work_cases (H : Hierarchy W X V P C) (volts : W → V) (s : Session W X V) :
    (work H volts s).rows = s.rows ∨ ∃ w b, (work H volts s).objects[(work H volts s).current]? = some b ∧ w = volts b.tuners ∧
      (work H volts s).rows = (if s.rows.getLast?.map Prod.fst = some w then s.rows.dropLast else s.rows) ++ [(w, b)] := by
  classical
  unfold work
  rcases hobj : s.objects[s.current]? with _ | a
  · exact .inl rfl
  · dsimp only
    split
    · exact .inl rfl
    · rcases iterate H (.ok ()) (a.load s.expt) with ⟨b, e, _ | _⟩
      · exact .inl rfl
      · refine .inr ⟨_, b.snapshot, ?_, rfl, ?_⟩
        · have hlt : s.current < s.objects.length := (List.getElem?_eq_some_iff.1 hobj).1
          simp [List.getElem?_set, hlt]
        · dsimp only
          congr

theorem chain_step {rows : List (V × Snapshot W V)} (h : rows.IsChain (fun a b => a.1 ≠ b.1)) (w : V) (b : Snapshot W V) [Decidable (rows.getLast?.map Prod.fst = some w)] :
    ((if rows.getLast?.map Prod.fst = some w then rows.dropLast else rows) ++ [(w, b)]).IsChain (fun a b => a.1 ≠ b.1) := by
  split
  · rename_i hl
    rcases List.eq_nil_or_concat rows with rfl | ⟨l, x, rfl⟩
    · simp
    · simp only [List.concat_eq_append, List.getLast?_append, List.getLast?_singleton, Option.some_or, Option.map_some, Option.some.injEq,
        List.dropLast_concat] at hl h ⊢
      rw [List.isChain_append] at h ⊢
      refine ⟨h.1, by simp, ?_⟩
      intro a ha c hc
      simp only [List.head?_cons, Option.mem_def, Option.some.injEq] at hc
      subst hc
      have := h.2.2 a ha x (by simp)
      rw [hl] at this
      exact this
  · rename_i hl
    rw [List.isChain_append]
    refine ⟨h, by simp, ?_⟩
    intro a ha c hc
    simp only [List.head?_cons, Option.mem_def, Option.some.injEq] at hc
    subst hc
    rintro hac
    exact hl (by rw [Option.mem_def.1 ha]; simpa using hac)

/-- **C139**, the numbers of the rows.  Whatever the user and the worker do: the history keeps one row for the voltages that stay the same over
several calls, so that neighbouring rows have different voltages. -/
theorem neighbouring_rows_differ (H : Hierarchy W X V P C) (volts : W → V) (a : Snapshot W V) (x : X) (as : List Act) :
    (run H volts (init a x []) as).rows.IsChain (fun a b => a.1 ≠ b.1) := by
  classical
  suffices key : ∀ (as : List Act) (s : Session W X V), s.rows.IsChain (fun a b => a.1 ≠ b.1) →
      (run H volts s as).rows.IsChain (fun a b => a.1 ≠ b.1) from key as _ (by simp [init])
  intro as
  induction as with
  | nil => intro s h; exact h
  | cons act as ih =>
    intro s h
    refine ih _ ?_
    cases act with
    | spawn => exact h
    | edit i t => exact h
    | voltages i =>
      have : (voltages H i s).rows = s.rows := by
        unfold voltages
        repeat' split
        all_goals rfl
      exact this ▸ h
    | state i =>
      have : (state H i s).rows = s.rows := by
        unfold state
        repeat' split
        all_goals rfl
      exact this ▸ h
    | work =>
      show (work H volts s).rows.IsChain _
      rcases work_cases H volts s with h' | ⟨w, b, -, -, h'⟩
      · rw [h']; exact h
      · rw [h']; exact chain_step h w b

/-- **C139**, what is stored in the rows.  In a round of the worker all rows except possibly the last one are kept, and if `iterate` does not raise
while the tuning is not complete, the last row has the autotuner of the main window, so that 'Reload Entire State' of the last row gives back its
present state. -/
theorem last_row_is_current (H : Hierarchy W X V P C) (volts : W → V) (s : Session W X V) {a : Snapshot W V}
    (ha : s.objects[s.current]? = some a) :
    (isComplete H (a.load s.expt) = true → work H volts s = s) ∧
    (isComplete H (a.load s.expt) = false → (iterate H (.ok ()) (a.load s.expt)).2.2 = .ok () →
      (work H volts s).current = s.current ∧
      ∃ b, (work H volts s).objects[s.current]? = some b ∧ (work H volts s).rows.getLast? = some (volts b.tuners, b) ∧
        b = (iterate H (.ok ()) (a.load s.expt)).1.snapshot) ∧
    s.rows.dropLast <+: (work H volts s).rows := by
  classical
  refine ⟨fun hc => by unfold work; rw [ha]; simp [hc], fun hc hok => ?_, ?_⟩
  · unfold work
    rw [ha]
    simp only [hc]
    rcases hi : iterate H (.ok ()) (a.load s.expt) with ⟨b, e, r⟩
    rw [hi] at hok
    simp only at hok
    subst hok
    have hlt : s.current < s.objects.length := (List.getElem?_eq_some_iff.1 ha).1
    exact ⟨rfl, b.snapshot, by simp [List.getElem?_set, hlt], by simp [State.snapshot], rfl⟩
  · rcases work_cases H volts s with h' | ⟨w, b, -, -, h'⟩
    · rw [h']; exact List.dropLast_prefix _
    · rw [h']
      split
      · exact List.prefix_append _ _
      · exact (List.dropLast_prefix _).trans (List.prefix_append _ _)

/-- The worker evaluates (row 0 stays), calculates the voltages 7 and sets them. -/
example : (run toyReload id (init ⟨6, 0, false, none⟩ 6 []) [.work, .work, .work]).rows.IsChain (fun a b => a.1 ≠ b.1) ∧
    (run toyReload id (init ⟨6, 0, false, none⟩ 6 []) [.work]).rows ≠ [] := by
  refine ⟨neighbouring_rows_differ _ _ _ _ _, ?_⟩
  simp [run, step, init, work, toyReload, Snapshot.load, State.snapshot, isComplete, iterate, finish]

end Qtune.Gui.Reload
