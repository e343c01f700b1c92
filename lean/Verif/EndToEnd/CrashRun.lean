import Verif.EndToEnd.CrashSpec
import Verif.Autotuner.PropsCrash
import Verif.Newton.PropsNew

/-! # Interrupted executions: helper lemmas -/

namespace Qtune.EndToEnd

open Qtune.Tuner Qtune.Gradient Qtune.Autotuner

section Generic

variable {W X V P C : Type}

theorem iterate_events (H : Hierarchy W X V P C) {s s' : Autotuner.State W X V} {ev : List (Event W V P)}
    (h : iterate H (.ok ()) s = (s', ev, .ok ())) :
    ∃ e : Event W V P, (∀ q, e ≠ .saved q) ∧ ev = [e, .saved s'.snapshot] := by
  have hfin : ∀ (t : Autotuner.State W X V) (e : Event W V P), (∀ q, e ≠ .saved q) →
      finish (.ok ()) t e = (s', ev, .ok ()) → ∃ e : Event W V P, (∀ q, e ≠ .saved q) ∧ ev = [e, .saved s'.snapshot] := by
    intro t e he h
    unfold finish at h
    simp only [Prod.mk.injEq, and_true] at h
    obtain ⟨rfl, rfl⟩ := h
    exact ⟨e, he, rfl⟩
  revert h
  fun_cases iterate H (.ok ()) s <;> intro h
  all_goals first
    | (exfalso; simp at h; done)
    | exact hfin _ _ (by simp) h

theorem iterate_pending (H : Hierarchy W X V P C) {s s' : Autotuner.State W X V} {ev : List (Event W V P)}
    (h : iterate H (.ok ()) s = (s', ev, .ok ())) (hp : s'.pending ≠ none) : s'.index < H.len := by
  revert h
  fun_cases iterate H (.ok ()) s <;> intro h
  all_goals first
    | (exfalso; simp at h; done)
    | (simp only [finish, Prod.mk.injEq, and_true] at h
       obtain ⟨rfl, -⟩ := h
       first
         | exact absurd rfl hp
         | (simp_all; done)
         | (simp only [not_le] at *; assumption))

theorem newestSaved_append (l l' : List (Event W V P)) :
    newestSaved (l ++ l') = (newestSaved l').orElse fun _ => newestSaved l := by
  induction l with
  | nil => cases h : newestSaved l' <;> simp [newestSaved, h]
  | cons e l ih =>
    cases e with
    | saved p => simp only [List.cons_append, newestSaved, ih]; cases newestSaved l' <;> rfl
    | _ => simp only [List.cons_append, newestSaved, ih]

theorem newestSaved_events {e : Event W V P} (he : ∀ q, e ≠ .saved q) (p : Snapshot W V) :
    newestSaved [e, .saved p] = some p := by
  cases e <;> first | rfl | exact absurd rfl (he _)

theorem calls_events {e : Event W V P} (he : ∀ q, e ≠ .saved q) (p : Snapshot W V) (l : List (Event W V P)) :
    calls (l ++ [e, .saved p]) = calls l + 1 := by
  unfold calls
  rw [List.filter_append, List.length_append]
  cases e <;> first | rfl | exact absurd rfl (he _)

theorem iterates_succ (H : Hierarchy W X V P C) {k : Nat} {s t t' : Autotuner.State W X V} {ev : List (Event W V P)}
    (h : iterates H k s = .ok t) (hi : iterate H (.ok ()) t = (t', ev, .ok ())) : iterates H (k + 1) s = .ok t' := by
  rw [iterates_add H k 1 s t h]
  simp [iterates, hi]

theorem iterates_succ_inv (H : Hierarchy W X V P C) {k : Nat} {s t t' : Autotuner.State W X V}
    (h : iterates H k s = .ok t) (hi : iterates H (k + 1) s = .ok t') :
    ∃ ev, iterate H (.ok ()) t = (t', ev, .ok ()) := by
  rw [iterates_add H k 1 s t h] at hi
  rcases hx : iterate H (.ok ()) t with ⟨u, ev, e | _⟩
  · simp [iterates, hx] at hi
  · simp only [iterates, hx, Except.ok.injEq] at hi
    subst hi
    exact ⟨ev, rfl⟩

theorem iterates_prefix (H : Hierarchy W X V P C) {j k : Nat} {s t : Autotuner.State W X V}
    (h : iterates H (j + k) s = .ok t) : ∃ u, iterates H j s = .ok u := by
  induction j generalizing s with
  | zero => exact ⟨s, rfl⟩
  | succ j ih =>
    rw [Nat.add_right_comm, iterates] at h
    rw [iterates]
    rcases hx : iterate H (.ok ()) s with ⟨u, ev, e | _⟩
    · rw [hx] at h; cases h
    · rw [hx] at h
      exact ih h

theorem SameUpToTornWrite.symm {H : Hierarchy W X V P C} {s t : Autotuner.State W X V}
    (h : SameUpToTornWrite H s t) : SameUpToTornWrite H t s := by
  obtain ⟨h1, h2⟩ := h
  refine ⟨h1.symm, ?_⟩
  have hp : s.pending = t.pending := congrArg Snapshot.pending h1
  have hw : s.tuners = t.tuners := congrArg Snapshot.tuners h1
  rcases h2 with h2 | ⟨v, hv, h3, h4⟩
  · exact Or.inl h2.symm
  · exact Or.inr ⟨v, hp.trans hv, h3.symm, by rw [hp, hw]; exact h4.symm⟩

theorem iterate_expt_none {H : Hierarchy W X V P C} (hpure : ∀ i v w x, (H.isTuned i v w x).1.2 = x)
    {s : Autotuner.State W X V} (hp : s.pending = none) : (iterate H (.ok ()) s).1.expt = s.expt := by
  have hi := hpure s.index (H.read s.expt) s.tuners s.expt
  unfold iterate
  rw [hp]
  dsimp only
  split
  · rfl
  · rfl
  · split
    · rfl
    · split
      · rfl
      · split
        · split
          all_goals
            rename_i heq
            rw [heq] at hi
            exact hi
        · split <;> rfl

theorem iterate_expt_some {H : Hierarchy W X V P C} {s : Autotuner.State W X V} {v : V} (hp : s.pending = some v) :
    (iterate H (.ok ()) s).1.expt = s.expt ∨ (iterate H (.ok ()) s).1.expt = (H.setVolt v s.expt).1 := by
  unfold iterate
  rw [hp]
  dsimp only
  split
  · exact Or.inl rfl
  · exact Or.inl rfl
  · split
    · exact Or.inl rfl
    · split
      · exact Or.inl rfl
      · right
        split
        all_goals
          rename_i heq
          rw [heq]
          try rfl

/-- What an interrupted execution has in common with one without crashes. -/
theorem Interrupted.follows {H : Hierarchy W X V P C} {load : W → Except PyErr W}
    (hpure : ∀ i v w x, (H.isTuned i v w x).1.2 = x)
    (hidem : ∀ v x, H.setVolt v (H.setVolt v x).1 = H.setVolt v x)
    (hready : ∀ w v x p, H.ready w (H.setVolt v x).1 p = H.ready w x p)
    {s₀ s : Autotuner.State W X V} {log : List (Event W V P)} (h : Interrupted H load s₀ s log)
    (hload : ∀ k t, iterates H (k + 1) s₀ = .ok t → load t.tuners = .ok t.tuners) :
    ∃ t, iterates H (calls log) s₀ = .ok t ∧ SameUpToTornWrite H s t ∧
      recovered load s₀.snapshot log = .ok t.snapshot := by
  suffices ∃ t, iterates H (calls log) s₀ = .ok t ∧ SameUpToTornWrite H s t ∧
      ((calls log = 0 ∧ newestSaved log = none ∧ t = s₀) ∨
        (∃ k, calls log = k + 1) ∧ newestSaved log = some t.snapshot) by
    obtain ⟨t, h1, h2, h3⟩ := this
    refine ⟨t, h1, h2, ?_⟩
    rcases h3 with ⟨-, h4, rfl⟩ | ⟨⟨k, hk⟩, h4⟩
    · simp [recovered, h4]
    · rw [hk] at h1
      unfold recovered
      rw [h4]
      dsimp only
      rw [show t.snapshot.tuners = t.tuners from rfl, hload k t h1]
      rfl
  induction h with
  | start => exact ⟨s₀, rfl, ⟨rfl, Or.inl rfl⟩, Or.inl ⟨rfl, rfl, rfl⟩⟩
  | @iter s s' log ev _ hi ih =>
    obtain ⟨t, h1, h2, -⟩ := ih
    obtain ⟨e, he, rfl⟩ := iterate_events H hi
    have ht := h2.iterate hi
    rw [calls_events he]
    refine ⟨s', iterates_succ H h1 ht, ⟨rfl, Or.inl rfl⟩, Or.inr ⟨⟨_, rfl⟩, ?_⟩⟩
    rw [newestSaved_append, newestSaved_events he]
    rfl
  | @crash s log x' p _ hx hp ih =>
    obtain ⟨t, h1, h2, h3⟩ := ih
    have hpt : p = t.snapshot := by
      rcases h3 with ⟨-, h4, rfl⟩ | ⟨⟨k, hk⟩, h4⟩
      · simp only [recovered, h4, Except.ok.injEq] at hp
        exact hp.symm
      · unfold recovered at hp
        rw [h4] at hp
        dsimp only at hp
        rw [hk] at h1
        rw [show t.snapshot.tuners = t.tuners from rfl, hload k t h1] at hp
        simp only [Except.ok.injEq] at hp
        exact hp.symm
    refine ⟨t, h1, ⟨by rw [hpt]; rfl, ?_⟩, h3⟩
    have hst : s.tuners = t.tuners := congrArg Snapshot.tuners h2.1
    have hsp : s.pending = t.pending := congrArg Snapshot.pending h2.1
    show x' = t.expt ∨ _
    -- what a crash leaves, seen from the execution without crashes
    have base : ∀ v, s.pending = some v → H.setVolt v s.expt = H.setVolt v t.expt ∧
        H.ready t.tuners s.expt t.pending = H.ready t.tuners t.expt t.pending := by
      intro v hv
      rcases h2.2 with h | ⟨w, hw, h, h'⟩
      · rw [h]; exact ⟨rfl, rfl⟩
      · rw [← hsp, hv] at hw
        cases hw
        exact ⟨h, h'⟩
    rcases hx with rfl | hx | ⟨v, hv, hset, hr⟩
    · rcases h2.2 with h | ⟨v, hv, hset, hr⟩
      · exact Or.inl h
      · exact Or.inr ⟨v, hv, hset, hr⟩
    · cases hpend : s.pending with
      | none =>
        left
        have hs : s.expt = t.expt := by
          rcases h2.2 with h | ⟨v, hv, -, -⟩
          · exact h
          · rw [← hsp, hpend] at hv; cases hv
        rw [hx, ← hs]
        exact iterate_expt_none hpure hpend
      | some v =>
        obtain ⟨b1, b2⟩ := base v hpend
        right
        refine ⟨v, hsp ▸ hpend, ?_, ?_⟩
        · show H.setVolt v x' = _
          have : x' = s.expt ∨ x' = (H.setVolt v s.expt).1 := by
            rw [hx]
            exact iterate_expt_some hpend
          rcases this with rfl | rfl
          · exact b1
          · rw [hidem]; exact b1
        · show H.ready t.tuners x' t.pending = _
          have : x' = s.expt ∨ x' = (H.setVolt v s.expt).1 := by
            rw [hx]
            exact iterate_expt_some hpend
          rcases this with rfl | rfl
          · exact b2
          · rw [hready]; exact b2
    · obtain ⟨b1, b2⟩ := base v hv
      right
      refine ⟨v, hsp ▸ hv, hset.trans b1, ?_⟩
      rw [← hst, ← hsp] at b2 ⊢
      exact hr.trans b2

end Generic

end Qtune.EndToEnd
