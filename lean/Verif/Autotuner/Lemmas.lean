import Verif.Autotuner.Spec

/-! # Helper lemmas for the autotuner (invariant of all histories) -/

namespace Qtune.Autotuner

variable {W X V P C : Type}

/-- Every element of a list satisfies `Q` relative to the part of the list before it. -/
def AllAt {α : Type} (Q : List α → α → Prop) (l : List α) : Prop :=
  ∀ pre e post, l = pre ++ e :: post → Q pre e

theorem AllAt.nil {α : Type} (Q : List α → α → Prop) : AllAt Q [] := by
  intro pre e post h; simp at h

theorem AllAt.snoc {α : Type} {Q : List α → α → Prop} {l : List α} {e : α}
    (h : AllAt Q l) (he : Q l e) : AllAt Q (l ++ [e]) := by
  intro pre e' post hl
  rcases List.eq_nil_or_concat post with rfl | ⟨p, a, rfl⟩
  · have := List.append_inj' hl (by simp)
    obtain ⟨rfl, h2⟩ := this
    simp at h2; subst h2; exact he
  · rw [List.concat_eq_append, ← List.cons_append, ← List.append_assoc] at hl
    have := List.append_inj' hl (by simp)
    exact h pre e' p this.1

/-- The voltages every evaluation and every write must be justified by. -/
def Justified (H : Hierarchy W X V P C) (pre : List (Event W V P)) : Event W V P → Prop
  | .evaluated i _ _ => i < H.len ∧ ∃ a b, pre = a ++ b ∧ TunedStretch i b
  | .wrote v _ => H.hasNaN v = false ∧ ∃ a i p mid,
      pre = a ++ .suggested i p (.ok v) :: mid ∧ ∀ e ∈ mid, QuietBeforeWrite v e
  | _ => True

/-- Certificate for the current index. -/
def Cert (H : Hierarchy W X V P C) (s : State W X V) (log : List (Event W V P)) : Prop :=
  ∃ pre post, log = pre ++ post ∧ TunedStretch s.index post ∧
    ((∀ i v w x, H.read (H.isTuned i v w x).1.2 = H.read x) →
      (∀ e ∈ post, ¬ e.IsManual) →
      ∀ i v r, Event.evaluated i v r ∈ post → v = H.read s.expt)

/-- Invariant of all histories that start with a fresh autotuner. -/
structure Inv (H : Hierarchy W X V P C) (s : State W X V) (log : List (Event W V P)) : Prop where
  idx : s.index ≤ H.len
  busy : (s.status = true ∨ s.pending ≠ none) → s.index < H.len
  excl : s.pending ≠ none → s.status = false
  cert : s.status = false → s.pending = none → Cert H s log
  pend : ∀ v, s.pending = some v → ∃ a i p mid,
      log = a ++ .suggested i p (.ok v) :: mid ∧ ∀ e ∈ mid, QuietBeforeWrite v e
  just : AllAt (Justified H) log

theorem stretch_nil : TunedStretch 0 ([] : List (Event W V P)) :=
  ⟨rfl, by simp, by simp⟩

theorem TunedStretch.snoc {n : Nat} {post : List (Event W V P)} {e : Event W V P}
    (h : TunedStretch n post) (h1 : e.tunedReport = none) (h2 : ¬ e.IsUntunedReport)
    (h3 : ¬ e.IsReset) : TunedStretch n (post ++ [e]) := by
  refine ⟨?_, ?_, ?_⟩
  · simp [List.filterMap_append, h1, h.reports]
  · intro x hx; rcases List.mem_append.1 hx with hx | hx
    · exact h.noUntuned x hx
    · simp at hx; subst hx; exact h2
  · intro x hx; rcases List.mem_append.1 hx with hx | hx
    · exact h.noReset x hx
    · simp at hx; subst hx; exact h3

theorem TunedStretch.report {n : Nat} {post : List (Event W V P)} {v : V}
    (h : TunedStretch n post) :
    TunedStretch (n + 1) (post ++ [.evaluated n v (.ok true)]) := by
  refine ⟨?_, ?_, ?_⟩
  · simp [List.filterMap_append, h.reports, Event.tunedReport, List.range_succ]
  · intro x hx; rcases List.mem_append.1 hx with hx | hx
    · exact h.noUntuned x hx
    · simp at hx; subst hx; simp [Event.IsUntunedReport]
  · intro x hx; rcases List.mem_append.1 hx with hx | hx
    · exact h.noReset x hx
    · simp at hx; subst hx; simp [Event.IsReset]

theorem Inv.fresh (H : Hierarchy W X V P C) (w : W) (x : X) :
    Inv H (fresh w x : State W X V) [] where
  idx := Nat.zero_le _
  busy := by simp [Autotuner.fresh]
  excl := by simp [Autotuner.fresh]
  cert := fun _ _ => ⟨[], [], rfl, stretch_nil, by simp⟩
  pend := by simp [Autotuner.fresh]
  just := AllAt.nil _

/-- Appending an event that is harmless for everything. -/
theorem Inv.quiet {H : Hierarchy W X V P C} {s : State W X V} {log : List (Event W V P)}
    (h : Inv H s log) (w : W) (e : Event W V P) (h1 : e.tunedReport = none)
    (h2 : ¬ e.IsUntunedReport) (h3 : ¬ e.IsReset) (h4 : ∀ v, QuietBeforeWrite v e)
    (h5 : Justified H log e) (h6 : ∀ i v r, e ≠ .evaluated i v r) :
    Inv H { s with tuners := w } (log ++ [e]) where
  idx := h.idx
  busy := h.busy
  excl := h.excl
  cert := by
    intro a b
    obtain ⟨pre, post, rfl, hs, hv⟩ := h.cert a b
    refine ⟨pre, post ++ [e], by simp, hs.snoc h1 h2 h3, ?_⟩
    intro hp hm i v r hmem
    rcases List.mem_append.1 hmem with hmem | hmem
    · exact hv hp (fun e he => hm e (List.mem_append_left _ he)) i v r hmem
    · simp at hmem; exact absurd hmem.symm (h6 i v r)
  pend := by
    intro v hv
    obtain ⟨a, i, p, mid, rfl, hmid⟩ := h.pend v hv
    refine ⟨a, i, p, mid ++ [e], by simp, ?_⟩
    intro x hx; rcases List.mem_append.1 hx with hx | hx
    · exact hmid x hx
    · simp at hx; subst hx; exact h4 v
  just := h.just.snoc h5

theorem Inv.saved {H : Hierarchy W X V P C} {s : State W X V} {log : List (Event W V P)}
    (h : Inv H s log) (p : Snapshot W V) : Inv H s (log ++ [.saved p]) :=
  h.quiet s.tuners (.saved p) rfl (by simp [Event.IsUntunedReport]) (by simp [Event.IsReset])
    (by simp [QuietBeforeWrite]) (by simp [Justified]) (by simp)

theorem Inv.finish {H : Hierarchy W X V P C} {s : State W X V} {log : List (Event W V P)}
    {save : Except PyErr Unit} {e : Event W V P} (h : Inv H s (log ++ [e])) :
    Inv H (Autotuner.finish save s e).1 (log ++ (Autotuner.finish save s e).2.1) := by
  unfold Autotuner.finish
  split
  · have := h.saved s.snapshot
    simpa using this
  · exact h

/-- Index 0, nothing pending, after a reset event. -/
theorem Inv.reset {H : Hierarchy W X V P C} {s : State W X V} {log : List (Event W V P)}
    (h : Inv H s log) (w : W) (x : X) (e : Event W V P) (h5 : Justified H log e) :
    Inv H { s with tuners := w, expt := x, index := 0, pending := none } (log ++ [e]) where
  idx := Nat.zero_le _
  busy := by
    intro hb
    simp at hb
    have := h.busy (Or.inl hb)
    show 0 < H.len
    omega
  excl := by simp
  cert := fun _ _ => ⟨log ++ [e], [], by simp, stretch_nil, by simp⟩
  pend := by simp
  just := h.just.snoc h5

theorem Inv.iterate {H : Hierarchy W X V P C} {s : State W X V} {log : List (Event W V P)}
    (h : Inv H s log) (save : Except PyErr Unit) :
    Inv H (Autotuner.iterate H save s).1 (log ++ (Autotuner.iterate H save s).2.1) := by
  unfold Autotuner.iterate
  split
  · simpa using h
  · simpa using h
  · split
    · simpa using h
    · rename_i hnc
      split
      · rename_i v hv
        split
        · simpa using h
        · rename_i hnan
          have hj : ∀ r, Justified H log (.wrote v r) := by
            intro r
            exact ⟨by simpa using hnan, h.pend v hv⟩
          split
          · rename_i x e heq
            refine ⟨h.idx, h.busy, h.excl, ?_, ?_, h.just.snoc (hj _)⟩
            · intro _ hb; exact absurd (hv.symm.trans hb) (by simp)
            · intro v' hv'
              have : v' = v := by
                have := hv.symm.trans hv'; simpa using this.symm
              subst this
              obtain ⟨a, i, p, mid, rfl, hmid⟩ := h.pend v' hv
              refine ⟨a, i, p, mid ++ [.wrote v' (.error e)], by simp, ?_⟩
              intro x hx; rcases List.mem_append.1 hx with hx | hx
              · exact hmid x hx
              · simp at hx; subst hx; simp [QuietBeforeWrite]
          · rename_i x heq
            exact (h.reset s.tuners x (.wrote v (.ok ())) (hj _)).finish
      · rename_i hp
        split
        · simpa using h
        · rename_i hlt
          split
          · rename_i hst
            obtain ⟨pre, post, rfl, hs, hv⟩ := h.cert hst hp
            have hj : ∀ r, Justified H (pre ++ post) (.evaluated s.index (H.read s.expt) r) :=
              fun r => ⟨by omega, pre, post, rfl, hs⟩
            split
            · rename_i w x e heq
              refine ⟨h.idx, h.busy, h.excl, ?_, ?_, h.just.snoc (hj _)⟩
              · intro _ _
                refine ⟨pre, post ++ [.evaluated s.index (H.read s.expt) (.error e)], by simp,
                  hs.snoc rfl (by simp [Event.IsUntunedReport])
                  (by simp [Event.IsReset]), ?_⟩
                intro hpure hm i v r hmem
                have hx := hpure s.index (H.read s.expt) s.tuners s.expt
                rw [heq] at hx
                simp only at hx ⊢
                rw [hx]
                rcases List.mem_append.1 hmem with hmem | hmem
                · exact hv hpure (fun e he => hm e (List.mem_append_left _ he)) i v r hmem
                · simp at hmem; exact hmem.2.1
              · intro v hv'; simp [hp] at hv'
            · rename_i w x heq
              apply Inv.finish
              refine ⟨by simp only; omega, ?_, ?_, ?_, ?_, h.just.snoc (hj _)⟩
              · simp [hst, hp]
              · simp [hp]
              · intro _ _
                refine ⟨pre, post ++ [.evaluated s.index (H.read s.expt) (.ok true)], by simp,
                  hs.report, ?_⟩
                intro hpure hm i v r hmem
                have hx := hpure s.index (H.read s.expt) s.tuners s.expt
                rw [heq] at hx
                simp only at hx ⊢
                rw [hx]
                rcases List.mem_append.1 hmem with hmem | hmem
                · exact hv hpure (fun e he => hm e (List.mem_append_left _ he)) i v r hmem
                · simp at hmem; exact hmem.2.1
              · intro v hv'; simp [hp] at hv'
            · rename_i w x heq
              apply Inv.finish
              refine ⟨h.idx, ?_, ?_, ?_, ?_, h.just.snoc (hj _)⟩
              · intro _; simp only; omega
              · simp [hp]
              · simp
              · intro v hv'; simp [hp] at hv'
          · rename_i hst
            have hst' : s.status = true := by simpa using hst
            split
            · rename_i w e heq
              refine ⟨h.idx, h.busy, h.excl, ?_, ?_, h.just.snoc (by simp [Justified])⟩
              · intro h1; simp [hst'] at h1
              · intro v hv'; simp [hp] at hv'
            · rename_i w v heq
              apply Inv.finish
              refine ⟨h.idx, ?_, ?_, ?_, ?_, h.just.snoc (by simp [Justified])⟩
              · intro _; simp only; omega
              · simp
              · simp
              · intro v' hv'
                simp at hv'; subst hv'
                exact ⟨log, s.index, _, [], rfl, by simp⟩

theorem Inv.step {H : Hierarchy W X V P C} {s : State W X V} {log : List (Event W V P)}
    (h : Inv H s log) (op : Op X C) :
    Inv H (Autotuner.step H s op).1 (log ++ (Autotuner.step H s op).2.1) := by
  cases op with
  | iterate save => exact h.iterate save
  | restart =>
    exact h.reset (H.restartTuners (H.read s.expt) s.tuners).1 s.expt .restarted
      (by simp [Justified])
  | changeTargets c =>
    simp only [Autotuner.step, changeTargets]
    have hq : ∀ w, Inv H { s with tuners := w } (log ++ [.targetsChanged false]) := fun w =>
      h.quiet w (.targetsChanged false) rfl (by simp [Event.IsUntunedReport])
        (by simp [Event.IsReset]) (by simp [QuietBeforeWrite]) (by simp [Justified]) (by simp)
    split
    · exact hq s.tuners
    · split
      · rename_i w e heq; exact hq w
      · rename_i w heq
        exact h.reset w s.expt (.targetsChanged true) (by simp [Justified])
  | manual x =>
    simp only [Autotuner.step]
    refine ⟨h.idx, h.busy, h.excl, ?_, ?_, h.just.snoc (by simp [Justified])⟩
    · intro a b
      obtain ⟨pre, post, rfl, hs, hv⟩ := h.cert a b
      refine ⟨pre, post ++ [.manual], by simp, hs.snoc rfl (by simp [Event.IsUntunedReport])
        (by simp [Event.IsReset]), ?_⟩
      intro hp hm
      exact absurd (by simp [Event.IsManual]) (hm .manual (by simp))
    · intro v hv
      obtain ⟨a, i, p, mid, rfl, hmid⟩ := h.pend v hv
      refine ⟨a, i, p, mid ++ [.manual], by simp, ?_⟩
      intro x hx; rcases List.mem_append.1 hx with hx | hx
      · exact hmid x hx
      · simp at hx; subst hx; simp [QuietBeforeWrite]

theorem Inv.run {H : Hierarchy W X V P C} {s : State W X V} {log : List (Event W V P)}
    (h : Inv H s log) (ops : List (Op X C)) :
    Inv H (Autotuner.run H s ops).1 (log ++ (Autotuner.run H s ops).2) := by
  induction ops generalizing s log with
  | nil => simpa [Autotuner.run] using h
  | cons op ops ih =>
    have := ih (h.step op)
    simpa [Autotuner.run] using this

/-! ### The three branches of `iterate` -/

theorem iterate_write (H : Hierarchy W X V P C) (save : Except PyErr Unit) (s : State W X V)
    (v : V) (hr : H.ready s.tuners s.expt s.pending = .ok true) (hc : s.index ≠ H.len)
    (hp : s.pending = some v) (hn : H.hasNaN v = false) :
    iterate H save s = match H.setVolt v s.expt with
      | (x, .error e) => ({ s with expt := x }, [.wrote v (.error e)], .error e)
      | (x, .ok ()) =>
        finish save { s with expt := x, index := 0, pending := none } (.wrote v (.ok ())) := by
  have hc' : isComplete H s = false := by simpa [isComplete] using hc
  unfold iterate
  rw [hr]
  simp only [hc']
  rw [hp]
  simp only [hn]
  rfl

theorem iterate_eval (H : Hierarchy W X V P C) (save : Except PyErr Unit) (s : State W X V)
    (hr : H.ready s.tuners s.expt s.pending = .ok true) (hc : s.index < H.len)
    (hp : s.pending = none) (hs : s.status = false) :
    iterate H save s =
        match H.isTuned s.index (H.read s.expt) s.tuners s.expt with
        | ((w, x), .error e) =>
          ({ s with tuners := w, expt := x },
            [.evaluated s.index (H.read s.expt) (.error e)], .error e)
        | ((w, x), .ok true) =>
          finish save { s with tuners := w, expt := x, index := s.index + 1 }
            (.evaluated s.index (H.read s.expt) (.ok true))
        | ((w, x), .ok false) =>
          finish save { s with tuners := w, expt := x, status := true }
            (.evaluated s.index (H.read s.expt) (.ok false)) := by
  have hc' : isComplete H s = false := by
    simp only [isComplete, beq_eq_false_iff_ne, ne_eq]; omega
  have hc'' : ¬ H.len ≤ s.index := by omega
  unfold iterate
  rw [hr]
  simp only [hc']
  rw [hp]
  simp only [hc'', hs]
  rfl

theorem iterate_suggest (H : Hierarchy W X V P C) (save : Except PyErr Unit) (s : State W X V)
    (hr : H.ready s.tuners s.expt s.pending = .ok true) (hc : s.index < H.len)
    (hp : s.pending = none) (hs : s.status = true) :
    iterate H save s =
        match H.nextVolt s.index (H.tunedParams s.tuners s.index) s.tuners with
        | (w, .error e) =>
          ({ s with tuners := w },
            [.suggested s.index (H.tunedParams s.tuners s.index) (.error e)], .error e)
        | (w, .ok v) =>
          finish save { s with tuners := w, pending := some v, status := false }
            (.suggested s.index (H.tunedParams s.tuners s.index) (.ok v)) := by
  have hc' : isComplete H s = false := by
    simp only [isComplete, beq_eq_false_iff_ne, ne_eq]; omega
  have hc'' : ¬ H.len ≤ s.index := by omega
  unfold iterate
  rw [hr]
  simp only [hc']
  rw [hp]
  simp only [hc'', hs]
  rfl

theorem inv_run_fresh (H : Hierarchy W X V P C) (w : W) (x : X) (ops : List (Op X C)) :
    Inv H (run H (fresh w x) ops).1 (run H (fresh w x) ops).2 := by
  simpa using (Inv.fresh H w x).run ops

end Qtune.Autotuner
