import Verif.Gui.FollowModel

/-!
# C172: open windows follow the history
-/

namespace Qtune.Gui.Follow

variable {σ τ π : Type}

/-! ## Specification -/

/-- After the last change of the history the signal was emitted. -/
def Announced : List (Act σ τ) → Bool := fun as => as.foldl (fun b a => match a with | .append _ => false | .emit => true | _ => b) true

/-- A window shows the current history, unless it cannot be drawn. -/
def Current (draw : Kind → Option τ → σ → Option π) (h : σ) (w : Win τ π) : Prop := ∀ p, draw w.kind w.chosen h = some p → w.shown = some p

/-! ## Lemmas -/

theorem refresh_current (draw : Kind → Option τ → σ → Option π) (h : σ) (w : Win τ π) : Current draw h (w.refresh draw h) := by
  intro p hp
  simp only [Win.refresh] at hp ⊢
  rw [hp]; rfl

structure Inv (draw : Kind → Option τ → σ → Option π) (b : Bool) (s : State σ τ π) : Prop where
  follow : b = true → ∀ w ∈ s.wins, w.kind.connected = true → w.id ∈ s.queue ∨ Current draw s.hist w

theorem step_inv (draw : Kind → Option τ → σ → Option π) {b : Bool} {s : State σ τ π} (h : Inv draw b s) (a : Act σ τ) :
    Inv draw (match a with | .append _ => false | .emit => true | _ => b) (step draw s a) := by
  cases a with
  | append x => exact ⟨fun h => by cases h⟩
  | emit =>
    refine ⟨fun _ w hw hc => .inl ?_⟩
    exact List.mem_append_right _ (List.mem_map.2 ⟨w, List.mem_filter.2 ⟨hw, hc⟩, rfl⟩)
  | event =>
    refine ⟨fun hb w hw hc => ?_⟩
    have hf := h.follow hb
    simp only [step] at hw ⊢
    cases hq : s.queue with
    | nil => simp only [hq] at hw ⊢; exact hq ▸ hf w hw hc
    | cons i q =>
      simp only [hq, List.mem_map] at hw hf ⊢
      obtain ⟨w0, hw0, rfl⟩ := hw
      by_cases e : w0.id = i
      · rw [if_pos e]; exact .inr (refresh_current _ _ _)
      · rw [if_neg e] at hc ⊢
        rcases hf w0 hw0 hc with h1 | h1
        · rcases List.mem_cons.1 h1 with h2 | h2
          · exact absurd h2 e
          · exact .inl h2
        · exact .inr h1
  | spawn k =>
    refine ⟨fun hb w hw hc => ?_⟩
    rcases List.mem_append.1 hw with h1 | h1
    · exact h.follow hb w h1 hc
    · rw [List.mem_singleton.1 h1]; exact .inr fun p hp => hp
  | choose i c =>
    refine ⟨fun hb w hw hc => ?_⟩
    simp only [step, List.mem_map] at hw ⊢
    obtain ⟨w0, hw0, rfl⟩ := hw
    by_cases e : w0.id = i ∧ w0.kind = .plot
    · rw [if_pos e]; exact .inr (refresh_current _ _ _)
    · rw [if_neg e] at hc ⊢; exact h.follow hb w0 hw0 hc
  | close i => exact ⟨fun hb w hw hc => h.follow hb w (List.mem_filter.1 hw).1 hc⟩

theorem run_inv (draw : Kind → Option τ → σ → Option π) : ∀ (as : List (Act σ τ)) (b : Bool) (s : State σ τ π), Inv draw b s →
    Inv draw (as.foldl (fun b a => match a with | .append _ => false | .emit => true | _ => b) b) (run draw s as)
  | [], _, _, h => h
  | a :: as, _, _, h => run_inv draw as _ _ (step_inv draw h a)

theorem run_append (draw : Kind → Option τ → σ → Option π) (s : State σ τ π) (as bs : List (Act σ τ)) :
    run draw s (as ++ bs) = run draw (run draw s as) bs := by simp [run]

theorem events_queue (draw : Kind → Option τ → σ → Option π) : ∀ (n : Nat) (s : State σ τ π), s.queue.length ≤ n →
    (run draw s (List.replicate n .event)).queue = [] ∧ (run draw s (List.replicate n .event)).hist = s.hist
  | 0, s, h => ⟨List.length_eq_zero_iff.1 (Nat.le_zero.1 h), rfl⟩
  | n + 1, s, h => by
    have hs : (step draw s .event).queue.length ≤ n ∧ (step draw s .event).hist = s.hist := by
      simp only [step]
      cases hq : s.queue with
      | nil => simp [hq]
      | cons i q => rw [hq] at h; exact ⟨by simpa using h, rfl⟩
    have ih := events_queue draw n _ hs.1
    rw [List.replicate_succ]
    exact ⟨ih.1, ih.2.trans hs.2⟩

theorem announced_events (as : List (Act σ τ)) (n : Nat) : Announced (as ++ List.replicate n .event) = Announced as := by
  simp only [Announced, List.foldl_append]
  generalize List.foldl _ true as = b
  induction n with
  | zero => rfl
  | succ n ih => rw [List.replicate_succ, List.foldl_cons]; exact ih

/-- What a window shows if it is not refreshed. -/
theorem frozen_step (draw : Kind → Option τ → σ → Option π) {s : State σ τ π} {i : Nat} {p : Option π}
    (hlt : ∀ w ∈ s.wins, w.id < s.next) (hi : i < s.next) (hq : i ∉ s.queue)
    (hp : ∀ w ∈ s.wins, w.id = i → w.kind = .rawData ∧ w.shown = p) (a : Act σ τ) :
    let s' := step draw s a
    (∀ w ∈ s'.wins, w.id < s'.next) ∧ i < s'.next ∧ i ∉ s'.queue ∧ ∀ w ∈ s'.wins, w.id = i → w.kind = .rawData ∧ w.shown = p := by
  cases a with
  | append x => exact ⟨hlt, hi, hq, hp⟩
  | emit =>
    refine ⟨hlt, hi, fun h => ?_, hp⟩
    rcases List.mem_append.1 h with h | h
    · exact hq h
    · obtain ⟨w, hw, e⟩ := List.mem_map.1 h
      obtain ⟨h1, h2⟩ := List.mem_filter.1 hw
      rw [(hp w h1 e).1] at h2
      exact absurd h2 (by simp [Kind.connected])
  | event =>
    simp only [step]
    cases hq' : s.queue with
    | nil => exact ⟨hlt, hi, hq, hp⟩
    | cons j q =>
      rw [hq'] at hq
      have hj : i ≠ j := fun e => hq (by simp [e])
      refine ⟨?_, hi, fun h => hq (by simp [h]), ?_⟩
      · intro w hw
        obtain ⟨w0, hw0, rfl⟩ := List.mem_map.1 hw
        have := hlt w0 hw0
        split <;> exact this
      · intro w hw e
        obtain ⟨w0, hw0, rfl⟩ := List.mem_map.1 hw
        by_cases e0 : w0.id = j
        · rw [if_pos e0] at e
          exact absurd (e.symm.trans e0) hj
        · rw [if_neg e0] at e ⊢
          exact hp w0 hw0 e
  | spawn k =>
    refine ⟨?_, Nat.lt_succ_of_lt hi, hq, ?_⟩
    · intro w hw
      rcases List.mem_append.1 hw with h | h
      · exact Nat.lt_succ_of_lt (hlt w h)
      · rw [List.mem_singleton.1 h]; exact Nat.lt_succ_self _
    · intro w hw e
      rcases List.mem_append.1 hw with h | h
      · exact hp w h e
      · rw [List.mem_singleton.1 h] at e; exact absurd e (Nat.ne_of_gt hi)
  | choose j c =>
    refine ⟨?_, hi, hq, ?_⟩
    · intro w hw
      obtain ⟨w0, hw0, rfl⟩ := List.mem_map.1 hw
      have := hlt w0 hw0
      split <;> exact this
    · intro w hw e
      obtain ⟨w0, hw0, rfl⟩ := List.mem_map.1 hw
      by_cases e0 : w0.id = j ∧ w0.kind = .plot
      · rw [if_pos e0] at e
        have := (hp w0 hw0 e).1
        rw [e0.2] at this; cases this
      · rw [if_neg e0] at e ⊢
        exact hp w0 hw0 e
  | close j =>
    exact ⟨fun w hw => hlt w (List.mem_filter.1 hw).1, hi, hq, fun w hw => hp w (List.mem_filter.1 hw).1⟩

theorem frozen_run (draw : Kind → Option τ → σ → Option π) {i : Nat} {p : Option π} : ∀ (as : List (Act σ τ)) (s : State σ τ π),
    (∀ w ∈ s.wins, w.id < s.next) → i < s.next → i ∉ s.queue → (∀ w ∈ s.wins, w.id = i → w.kind = .rawData ∧ w.shown = p) →
    ∀ w ∈ (run draw s as).wins, w.id = i → w.kind = .rawData ∧ w.shown = p
  | [], _, _, _, _, hp => hp
  | a :: as, _, hlt, hi, hq, hp =>
    have h := frozen_step draw hlt hi hq hp a
    frozen_run draw as _ h.1 h.2.1 h.2.2.1 h.2.2.2

/-- All numbers of windows and events are below the number of the next window. -/
theorem ids_run (draw : Kind → Option τ → σ → Option π) : ∀ (as : List (Act σ τ)) (s : State σ τ π),
    (∀ w ∈ s.wins, w.id < s.next) → (∀ i ∈ s.queue, i < s.next) →
    (∀ w ∈ (run draw s as).wins, w.id < (run draw s as).next) ∧ ∀ i ∈ (run draw s as).queue, i < (run draw s as).next
  | [], _, h1, h2 => ⟨h1, h2⟩
  | a :: as, s, h1, h2 => by
    refine ids_run draw as (step draw s a) ?_ ?_
    · intro w hw
      cases a with
      | append x => exact h1 w hw
      | emit => exact h1 w hw
      | event =>
        simp only [step] at hw ⊢
        cases hq : s.queue with
        | nil => rw [hq] at hw; exact h1 w hw
        | cons j q =>
          rw [hq] at hw
          obtain ⟨w0, hw0, rfl⟩ := List.mem_map.1 hw
          have := h1 w0 hw0
          split <;> exact this
      | spawn k =>
        rcases List.mem_append.1 hw with h | h
        · exact Nat.lt_succ_of_lt (h1 w h)
        · rw [List.mem_singleton.1 h]; exact Nat.lt_succ_self _
      | choose j c =>
        obtain ⟨w0, hw0, rfl⟩ := List.mem_map.1 hw
        have := h1 w0 hw0
        simp only [step]
        split <;> exact this
      | close j => exact h1 w (List.mem_filter.1 hw).1
    · intro i hi
      cases a with
      | append x => exact h2 i hi
      | emit =>
        rcases List.mem_append.1 hi with h | h
        · exact h2 i h
        · obtain ⟨w, hw, rfl⟩ := List.mem_map.1 h
          exact h1 w (List.mem_filter.1 hw).1
      | event =>
        simp only [step] at hi ⊢
        cases hq : s.queue with
        | nil => rw [hq] at hi; exact h2 i (hq ▸ hi)
        | cons j q => rw [hq] at hi; exact h2 i (hq ▸ List.mem_cons_of_mem _ hi)
      | spawn k => exact Nat.lt_succ_of_lt (h2 i hi)
      | choose j c => exact h2 i hi
      | close j => exact h2 i hi

/-! ## C172 -/

/-- **C172** (partial: not for windows with raw data, and not if the worker does not emit the signal after a change of the history): in all schedules
of worker and main thread and for all windows opened and closed in between, once the events of the queue are processed every open window
shows the current history, unless it cannot be drawn. -/
theorem windows_follow_partial (draw : Kind → Option τ → σ → Option π) (h : σ) (as : List (Act σ τ)) (ha : Announced as = true) (n : Nat)
    (hn : (run draw (init h) as).queue.length ≤ n) :
    let s := run draw (init h) (as ++ List.replicate n .event)
    s.hist = (run draw (init h) as).hist ∧ ∀ w ∈ s.wins, w.kind ≠ .rawData → Current draw s.hist w := by
  have hq := events_queue draw n _ hn
  rw [← run_append] at hq
  refine ⟨hq.2, fun w hw hk => ?_⟩
  have inv := run_inv draw (as ++ List.replicate n .event) true (init h) ⟨fun _ w hw => by cases hw⟩
  have hb : Announced (as ++ List.replicate n .event) = true := by rw [announced_events, ha]
  rcases inv.follow hb w hw (by cases hc : w.kind <;> simp_all [Kind.connected]) with h1 | h1
  · rw [hq.1] at h1; cases h1
  · exact h1

/-- **C172** refuted for windows with raw data: whatever happens, a window goes on showing what it showed when it was opened. -/
theorem raw_data_window_follows_refuted (draw : Kind → Option τ → σ → Option π) (h : σ) (as bs : List (Act σ τ)) :
    let s := run draw (init h) as
    ∀ w ∈ (run draw (init h) (as ++ .spawn .rawData :: bs)).wins, w.id = s.next → w.kind = .rawData ∧ w.shown = draw .rawData none s.hist := by
  intro s
  obtain ⟨h1, h2⟩ := ids_run draw as (init h) (fun w hw => by cases hw) (fun i hi => by cases hi)
  rw [run_append]
  refine frozen_run draw bs (step draw (run draw (init h) as) (.spawn .rawData)) ?_ (Nat.lt_succ_self _) ?_ ?_
  · intro w hw
    rcases List.mem_append.1 hw with h | h
    · exact Nat.lt_succ_of_lt (h1 w h)
    · rw [List.mem_singleton.1 h]; exact Nat.lt_succ_self _
  · exact fun h => absurd (h2 _ h) (Nat.lt_irrefl _)
  · intro w hw e
    rcases List.mem_append.1 hw with h | h
    · exact absurd e (Nat.ne_of_lt (h1 w h))
    · rw [List.mem_singleton.1 h]; exact ⟨rfl, rfl⟩

/-- **C172** refuted for changes of the history without the signal: if an exception keeps the worker from emitting it, no window changes until
it is emitted again or the window is refreshed for another reason. -/
theorem silent_change_refuted (draw : Kind → Option τ → σ → Option π) (h h' : σ) (as : List (Act σ τ)) (n : Nat)
    (hq : (run draw (init h) as).queue = []) :
    (run draw (init h) (as ++ .append h' :: List.replicate n .event)).wins = (run draw (init h) as).wins := by
  rw [run_append]
  have : ∀ n (t : State σ τ π), t.queue = [] → (run draw t (List.replicate n .event)).wins = t.wins := by
    intro n
    induction n with
    | zero => exact fun t _ => rfl
    | succ n ih =>
      intro t ht
      have e : step draw t .event = t := by simp [step, ht]
      rw [List.replicate_succ]
      show (run draw (step draw t .event) _).wins = t.wins
      rw [e]; exact ih t ht
  exact this n (step draw (run draw (init h) as) (.append h')) hq

/-! ## Examples -/

/-- Two windows are open when the history changes, the first one is closed before its event is processed; a third one was opened in between.
The numbers drawn are those of the history, and what is chosen. -/
example : let as : List (Act Nat Nat) := [.spawn .plot, .spawn .gradient, .append 7, .spawn .plot, .emit, .close 0, .choose 2 (some 5), .append 8,
      .event, .emit]
    let draw : Kind → Option Nat → Nat → Option (Option Nat × Nat) := fun _ c h => some (c, h)
    Announced as = true ∧ (run draw (init 3) as).queue.length = 4 ∧
    (run draw (init 3) (as ++ List.replicate 4 .event)).wins = [⟨1, .gradient, none, some (none, 8)⟩, ⟨2, .plot, some 5, some (some 5, 8)⟩] :=
  ⟨rfl, rfl, rfl⟩

/-- A window with raw data, opened before the first evaluation, stays empty. -/
example : (run (τ := Unit) (fun _ _ h => some h) (init []) [.spawn .rawData, .append ["A"], .emit, .event]).wins = [⟨0, .rawData, none, some []⟩] := rfl

/-- A change of the history that is not announced. -/
example : (run (τ := Unit) (fun _ _ h => some h) (init 3) [.spawn .plot]).queue = [] := rfl

end Qtune.Gui.Follow
