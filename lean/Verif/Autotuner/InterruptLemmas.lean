import Verif.Autotuner.Lemmas
import Verif.Autotuner.InterruptModel
import Verif.Autotuner.InterruptSpec

/-! # Helper lemmas for interrupted calls -/

namespace Qtune.Autotuner

variable {W X V P C : Type}

theorem certified_nil : CertifiedStretch 0 ([] : List (Event W V P)) :=
  ⟨by simp, by simp⟩

theorem CertifiedStretch.snoc {n : Nat} {post : List (Event W V P)} {e : Event W V P}
    (h : CertifiedStretch n post) (h1 : ¬ e.IsReset)
    (h2 : ∀ j v r, e = .evaluated j v r → n ≤ j) : CertifiedStretch n (post ++ [e]) := by
  refine ⟨?_, ?_⟩
  · intro x hx
    rcases List.mem_append.1 hx with hx | hx
    · exact h.noReset x hx
    · simp only [List.mem_singleton] at hx; subst hx; exact h1
  · intro i hi
    obtain ⟨a, v, b, rfl, hb⟩ := h.reports i hi
    refine ⟨a, v, b ++ [e], by simp, ?_⟩
    intro j v' r hm
    rcases List.mem_append.1 hm with hm | hm
    · exact hb j v' r hm
    · simp only [List.mem_singleton] at hm
      have := h2 j v' r hm.symm
      omega

theorem CertifiedStretch.report {n : Nat} {post : List (Event W V P)} {v : V}
    (h : CertifiedStretch n post) :
    CertifiedStretch (n + 1) (post ++ [.evaluated n v (.ok true)]) := by
  have h' := h.snoc (e := .evaluated n v (.ok true)) (by simp [Event.IsReset])
    (by intro j v r he; simp at he; omega)
  refine ⟨h'.noReset, ?_⟩
  intro i hi
  by_cases hin : i < n
  · exact h'.reports i hin
  · have : i = n := by omega
    subst this
    exact ⟨post, v, [], rfl, by simp⟩

/-- Certificate for the current index. -/
def Cert' (H : Hierarchy W X V P C) (s : State W X V) (log : List (Event W V P)) : Prop :=
  ∃ pre post, log = pre ++ post ∧ CertifiedStretch s.index post ∧
    ((∀ i v w x, H.read (H.isTuned i v w x).1.2 = H.read x) →
      (∀ e ∈ post, ¬ e.IsManual) →
      ∀ i v r, Event.evaluated i v r ∈ post → v = H.read s.expt)

/-- Invariant of all histories with interruptions. -/
structure Inv' (H : Hierarchy W X V P C) (s : State W X V) (log : List (Event W V P)) : Prop where
  idx : s.index ≤ H.len
  busy : (s.status = true ∨ s.pending ≠ none) → s.index < H.len
  cert : s.status = false → s.pending = none → Cert' H s log

theorem Inv'.fresh (H : Hierarchy W X V P C) (w : W) (x : X) :
    Inv' H (fresh w x : State W X V) [] where
  idx := Nat.zero_le _
  busy := by simp [Autotuner.fresh]
  cert := fun _ _ => ⟨[], [], rfl, certified_nil, by simp⟩

/-- Index 0: nothing is claimed. -/
theorem Inv'.zero {H : Hierarchy W X V P C} {s : State W X V} {log : List (Event W V P)}
    (s' : State W X V) (log' : List (Event W V P)) (h : Inv' H s log) (hi : s'.index = 0)
    (hb : s'.status = true ∨ s'.pending ≠ none → s.status = true ∨ s.pending ≠ none) :
    Inv' H s' log' where
  idx := by omega
  busy := fun hb' => by have := h.busy (hb hb'); omega
  cert := fun _ _ => ⟨log', [], by simp, by rw [hi]; exact certified_nil, by simp⟩

/-- An event that does not concern the certificate. -/
theorem Inv'.quiet {H : Hierarchy W X V P C} {s : State W X V} {log : List (Event W V P)}
    (h : Inv' H s log) (w : W) (e : Event W V P) (h3 : ¬ e.IsReset)
    (h6 : ∀ i v r, e ≠ .evaluated i v r) : Inv' H { s with tuners := w } (log ++ [e]) where
  idx := h.idx
  busy := h.busy
  cert := by
    intro a b
    obtain ⟨pre, post, rfl, hs, hv⟩ := h.cert a b
    refine ⟨pre, post ++ [e], by simp, hs.snoc h3 (fun j v r he => absurd he (h6 j v r)), ?_⟩
    intro hp hm i v r hmem
    rcases List.mem_append.1 hmem with hmem | hmem
    · exact hv hp (fun e he => hm e (List.mem_append_left _ he)) i v r hmem
    · simp only [List.mem_singleton] at hmem; exact absurd hmem.symm (h6 i v r)

/-- The voltages of an evaluation are those of the experiment. -/
theorem cert_eval {H : Hierarchy W X V P C} {s : State W X V} {post : List (Event W V P)}
    {w : W} {x : X} {r₀ r₁ : Except PyErr Bool}
    (hv : (∀ i v w x, H.read (H.isTuned i v w x).1.2 = H.read x) →
      (∀ e ∈ post, ¬ e.IsManual) →
      ∀ i v r, Event.evaluated i v r ∈ post → v = H.read s.expt)
    (heq : H.isTuned s.index (H.read s.expt) s.tuners s.expt = ((w, x), r₀)) :
    (∀ i v w x, H.read (H.isTuned i v w x).1.2 = H.read x) →
      (∀ e ∈ post ++ [Event.evaluated s.index (H.read s.expt) r₁], ¬ e.IsManual) →
      ∀ i v r, Event.evaluated i v r ∈ post ++ [Event.evaluated s.index (H.read s.expt) r₁] →
        v = H.read x := by
  intro hpure hm i v r hmem
  have hx := hpure s.index (H.read s.expt) s.tuners s.expt
  rw [heq] at hx
  simp only at hx
  rw [hx]
  rcases List.mem_append.1 hmem with hmem | hmem
  · exact hv hpure (fun e he => hm e (List.mem_append_left _ he)) i v r hmem
  · simp at hmem; exact hmem.2.1

theorem stopAt_mem (tr : List (State W X V × List (Event W V P))) (n : Nat) (s : State W X V)
    (h : tr ≠ []) : stopAt tr n s ∈ tr := by
  unfold stopAt
  split
  · rename_i r hr; exact List.mem_of_getElem? hr
  · rw [List.getLast?_eq_some_getLast h]; exact List.getLast_mem h

theorem iterateTrace_ne (H : Hierarchy W X V P C) (s : State W X V) : iterateTrace H s ≠ [] := by
  unfold iterateTrace
  repeat' split
  all_goals simp

theorem iterate_trace (H : Hierarchy W X V P C) (save : Except PyErr Unit) (s : State W X V) :
    ∃ r, (iterateTrace H s).getLast? = some r ∧ (iterate H save s).1 = r.1 ∧
      ((iterate H save s).2.1 = r.2 ∨ (iterate H save s).2.1 = r.2 ++ [.saved r.1.snapshot]) := by
  unfold iterate iterateTrace
  cases save <;> simp only [finish]
  all_goals
    repeat' split
  all_goals simp_all

theorem Inv'.trace {H : Hierarchy W X V P C} {s : State W X V} {log : List (Event W V P)}
    (h : Inv' H s log) (r : State W X V × List (Event W V P)) (hr : r ∈ iterateTrace H s) :
    Inv' H r.1 (log ++ r.2) := by
  unfold iterateTrace at hr
  split at hr
  · simp only [List.mem_singleton] at hr; subst hr; simpa using h
  · simp only [List.mem_singleton] at hr; subst hr; simpa using h
  · split at hr
    · simp only [List.mem_singleton] at hr; subst hr; simpa using h
    · split at hr
      · rename_i v hv
        split at hr
        · simp only [List.mem_singleton] at hr; subst hr; simpa using h
        · have hlt : s.index < H.len := h.busy (Or.inr (by simp [hv]))
          split at hr
          · simp only [List.mem_cons, List.not_mem_nil, or_false] at hr
            rcases hr with rfl | rfl
            · simpa using h
            · exact ⟨h.idx, fun _ => hlt, fun _ hb => absurd (hv.symm.trans hb) (by simp)⟩
          · simp only [List.mem_cons, List.not_mem_nil, or_false] at hr
            rcases hr with rfl | rfl | rfl | rfl
            · simpa using h
            · exact ⟨h.idx, fun _ => hlt, fun _ hb => absurd (hv.symm.trans hb) (by simp)⟩
            · exact h.zero _ _ rfl (fun hb => hb)
            · exact h.zero _ _ rfl (fun _ => Or.inr (by simp [hv]))
      · rename_i hp
        split at hr
        · simp only [List.mem_singleton] at hr; subst hr; simpa using h
        · rename_i hlt
          split at hr
          · rename_i hst
            obtain ⟨pre, post, rfl, hs, hv⟩ := h.cert hst hp
            split at hr
            · rename_i w x e heq
              simp only [List.mem_cons, List.not_mem_nil, or_false] at hr
              rcases hr with rfl | rfl
              · simpa using h
              · refine ⟨h.idx, h.busy, fun _ _ => ⟨pre, post ++ [_], by simp; rfl,
                  hs.snoc (by simp [Event.IsReset]) ?_, cert_eval hv heq⟩⟩
                intro j v r he; simp at he; exact Nat.le_of_eq he.1
            · rename_i w x heq
              simp only [List.mem_cons, List.not_mem_nil, or_false] at hr
              rcases hr with rfl | rfl | rfl
              · simpa using h
              · refine ⟨h.idx, h.busy, fun _ _ => ⟨pre, post ++ [_], by simp; rfl,
                  hs.snoc (by simp [Event.IsReset]) ?_, cert_eval hv heq⟩⟩
                intro j v r he; simp at he; exact Nat.le_of_eq he.1
              · refine ⟨by simp only; omega, by simp [hst, hp], fun _ _ => ⟨pre, post ++ [_],
                  by simp, hs.report, cert_eval hv heq⟩⟩
            · rename_i w x heq
              simp only [List.mem_cons, List.not_mem_nil, or_false] at hr
              rcases hr with rfl | rfl | rfl
              · simpa using h
              · refine ⟨h.idx, h.busy, fun _ _ => ⟨pre, post ++ [_], by simp; rfl,
                  hs.snoc (by simp [Event.IsReset]) ?_, cert_eval hv heq⟩⟩
                intro j v r he; simp at he; exact Nat.le_of_eq he.1
              · exact ⟨h.idx, fun _ => by simp only; omega, by simp⟩
          · rename_i hst
            have hst' : s.status = true := by simpa using hst
            have hlt' : s.index < H.len := by omega
            split at hr
            · simp only [List.mem_cons, List.not_mem_nil, or_false] at hr
              rcases hr with rfl | rfl
              · simpa using h
              · exact ⟨h.idx, h.busy, fun h1 => by simp [hst'] at h1⟩
            · simp only [List.mem_cons, List.not_mem_nil, or_false] at hr
              rcases hr with rfl | rfl | rfl | rfl
              · simpa using h
              · exact ⟨h.idx, h.busy, fun h1 => by simp [hst'] at h1⟩
              · exact ⟨h.idx, fun _ => hlt', fun h1 => by simp [hst'] at h1⟩
              · exact ⟨h.idx, fun _ => hlt', by simp⟩

theorem Inv'.iterate {H : Hierarchy W X V P C} {s : State W X V} {log : List (Event W V P)}
    (h : Inv' H s log) (save : Except PyErr Unit) :
    Inv' H (Autotuner.iterate H save s).1 (log ++ (Autotuner.iterate H save s).2.1) := by
  obtain ⟨r, hr, h1, h2⟩ := iterate_trace H save s
  have h' := h.trace r (List.mem_of_getLast? hr)
  rw [h1]
  rcases h2 with h2 | h2
  · rw [h2]; exact h'
  · rw [h2, ← List.append_assoc]
    exact h'.quiet r.1.tuners _ (by simp [Event.IsReset]) (by simp)

/-- An interruption of `change_targets` between the assignment of the targets and the next
statement. -/
def Act.BeforeReset : Act X C → Prop
  | .targetsStopped _ n => n = 1
  | _ => False

theorem Inv'.act {H : Hierarchy W X V P C} {s : State W X V} {log : List (Event W V P)}
    (h : Inv' H s log) (a : Act X C) (ha : ¬ a.BeforeReset) :
    Inv' H (Autotuner.act H s a).1 (log ++ (Autotuner.act H s a).2) := by
  cases a with
  | call op =>
    cases op with
    | iterate save => exact h.iterate save
    | restart =>
      refine h.zero _ _ rfl (fun hb => ?_)
      simp [Autotuner.act, Autotuner.step, Autotuner.restart] at hb
      exact Or.inl hb
    | changeTargets c =>
      simp only [Autotuner.act, Autotuner.step, Autotuner.changeTargets]
      split
      · exact h.quiet s.tuners _ (by simp [Event.IsReset]) (by simp)
      · split
        · exact h.quiet _ _ (by simp [Event.IsReset]) (by simp)
        · exact h.zero _ _ rfl (fun hb => by simp at hb; exact Or.inl hb)
    | manual x =>
      simp only [Autotuner.act, Autotuner.step]
      refine ⟨h.idx, h.busy, ?_⟩
      intro a b
      obtain ⟨pre, post, rfl, hs, hv⟩ := h.cert a b
      refine ⟨pre, post ++ [.manual], by simp, hs.snoc (by simp [Event.IsReset]) (by simp), ?_⟩
      intro hp hm
      exact absurd (by simp [Event.IsManual]) (hm .manual (by simp))
  | iterateStopped n => exact h.trace _ (stopAt_mem _ n s (iterateTrace_ne H s))
  | restartStopped n =>
    have hm := stopAt_mem (restartTrace H s) n s (by simp [restartTrace])
    simp only [Autotuner.act]
    generalize stopAt (restartTrace H s) n s = r at hm
    simp only [restartTrace, List.mem_cons, List.not_mem_nil, or_false] at hm
    rcases hm with rfl | rfl | rfl | rfl
    · simpa using h
    · exact h.zero _ _ rfl (fun hb => hb)
    · exact h.zero _ _ rfl (fun hb => by simp at hb; exact Or.inl hb)
    · exact h.zero _ _ rfl (fun hb => by simp at hb; exact Or.inl hb)
  | targetsStopped c n =>
    simp only [Autotuner.act, targetsTrace]
    have hq : ∀ w, Inv' H { s with tuners := w } (log ++ [.targetsChanged false]) := fun w =>
      h.quiet w (.targetsChanged false) (by simp [Event.IsReset]) (by simp)
    split
    · have hm := stopAt_mem [(s, ([] : List (Event W V P))), (s, [.targetsChanged false])] n s
        (by simp)
      generalize stopAt _ n s = r at hm
      simp only [List.mem_cons, List.not_mem_nil, or_false] at hm
      rcases hm with rfl | rfl
      · simpa using h
      · exact hq s.tuners
    · split
      · rename_i w e _
        have hm := stopAt_mem [(s, ([] : List (Event W V P))),
          ({ s with tuners := w }, [.targetsChanged false])] n s (by simp)
        generalize stopAt _ n s = r at hm
        simp only [List.mem_cons, List.not_mem_nil, or_false] at hm
        rcases hm with rfl | rfl
        · simpa using h
        · exact hq w
      · rename_i w _
        rcases n with _ | _ | _ | n
        · simpa [stopAt] using h
        · exact absurd rfl ha
        · exact h.zero _ _ rfl (fun hb => hb)
        · have hl : stopAt [(s, ([] : List (Event W V P))),
              ({ s with tuners := w }, [.targetsChanged true]),
              ({ s with tuners := w, index := 0 }, [.targetsChanged true]),
              ({ s with tuners := w, index := 0, pending := none }, [.targetsChanged true])]
              (n + 3) s =
              ({ s with tuners := w, index := 0, pending := none }, [.targetsChanged true]) := by
            cases n <;> simp [stopAt]
          rw [hl]
          exact h.zero _ _ rfl (fun hb => by simp at hb; exact Or.inl hb)

theorem Inv'.acts {H : Hierarchy W X V P C} {s : State W X V} {log : List (Event W V P)}
    (h : Inv' H s log) (l : List (Act X C)) (hl : ∀ a ∈ l, ¬ a.BeforeReset) :
    Inv' H (Autotuner.acts H s l).1 (log ++ (Autotuner.acts H s l).2) := by
  induction l generalizing s log with
  | nil => simpa [Autotuner.acts] using h
  | cons a l ih =>
    have := ih (h.act a (hl a (by simp))) (fun b hb => hl b (by simp [hb]))
    simpa [Autotuner.acts] using this

/-! ### Suggestions and writes -/

/-- What must have happened before a suggestion and before a write. -/
def Founded (pre : List (Event W V P)) : Event W V P → Prop
  | .suggested i _ _ => ∃ a v mid, pre = a ++ .evaluated i v (.ok false) :: mid ∧
      ∀ e ∈ mid, SuggestsAgain i e
  | .wrote v _ => ∃ a i p mid, pre = a ++ .suggested i p (.ok v) :: mid ∧
      ∀ e ∈ mid, WritesAgain v e
  | _ => True

/-- Invariant of histories of iterations, some of them interrupted. -/
structure SInv (s : State W X V) (log : List (Event W V P)) : Prop where
  excl : s.status = false ∨ s.pending = none
  wait : s.status = true → ∃ a v mid, log = a ++ .evaluated s.index v (.ok false) :: mid ∧
      ∀ e ∈ mid, SuggestsAgain s.index e
  pend : ∀ v, s.pending = some v → ∃ a i p mid, log = a ++ .suggested i p (.ok v) :: mid ∧
      ∀ e ∈ mid, WritesAgain v e
  just : AllAt Founded log

theorem SInv.trace {H : Hierarchy W X V P C} {s : State W X V} {log : List (Event W V P)}
    (h : SInv s log) (r : State W X V × List (Event W V P)) (hr : r ∈ iterateTrace H s)
    (hx : r.1.status = false ∨ r.1.pending = none) :
    SInv r.1 (log ++ r.2) := by
  have again : ∀ {v : V} (e : Event W V P), s.pending = some v → WritesAgain v e →
      ∃ a i p mid, log ++ [e] = a ++ .suggested i p (.ok v) :: mid ∧
        ∀ e ∈ mid, WritesAgain v e := by
    intro v e hv he
    obtain ⟨a, i, p, mid, hl, hm⟩ := h.pend v hv
    refine ⟨a, i, p, mid ++ [e], by simp [hl], ?_⟩
    intro x hx
    rcases List.mem_append.1 hx with hx | hx
    · exact hm x hx
    · simp only [List.mem_singleton] at hx; subst hx; exact he
  unfold iterateTrace at hr
  split at hr
  · simp only [List.mem_singleton] at hr; subst hr; simpa using h
  · simp only [List.mem_singleton] at hr; subst hr; simpa using h
  · split at hr
    · simp only [List.mem_singleton] at hr; subst hr; simpa using h
    · split at hr
      · rename_i v hv
        have hst : s.status = false := by
          rcases h.excl with he | he
          · exact he
          · rw [hv] at he; simp at he
        have kept : ∀ (x : X) (k : Nat) (res : Except PyErr Unit),
            SInv { s with expt := x, index := k } (log ++ [.wrote v res]) := by
          intro x k res
          refine ⟨Or.inl hst, fun h1 => by simp [hst] at h1, ?_, h.just.snoc (h.pend v hv)⟩
          intro v' hv'
          have : v' = v := by
            have := hv.symm.trans hv'; simpa using this.symm
          subst this
          exact again _ hv (by simp [WritesAgain])
        split at hr
        · simp only [List.mem_singleton] at hr; subst hr; simpa using h
        · split at hr
          · simp only [List.mem_cons, List.not_mem_nil, or_false] at hr
            rcases hr with rfl | rfl
            · simpa using h
            · exact kept _ s.index _
          · simp only [List.mem_cons, List.not_mem_nil, or_false] at hr
            rcases hr with rfl | rfl | rfl | rfl
            · simpa using h
            · exact kept _ s.index _
            · exact kept _ 0 _
            · exact ⟨Or.inl hst, fun h1 => by simp [hst] at h1, by simp,
                h.just.snoc (h.pend v hv)⟩
      · rename_i hp
        split at hr
        · simp only [List.mem_singleton] at hr; subst hr; simpa using h
        · split at hr
          · rename_i hst
            have ev : ∀ (w : W) (x : X) (k : Nat) (res : Except PyErr Bool),
                SInv { s with tuners := w, expt := x, index := k }
                  (log ++ [.evaluated s.index (H.read s.expt) res]) := fun w x k res =>
              ⟨Or.inl hst, fun h1 => by simp [hst] at h1, fun v hv => by simp [hp] at hv,
                h.just.snoc (by simp [Founded])⟩
            split at hr
            · simp only [List.mem_cons, List.not_mem_nil, or_false] at hr
              rcases hr with rfl | rfl
              · simpa using h
              · exact ev _ _ s.index _
            · simp only [List.mem_cons, List.not_mem_nil, or_false] at hr
              rcases hr with rfl | rfl | rfl
              · simpa using h
              · exact ev _ _ s.index _
              · exact ev _ _ _ _
            · simp only [List.mem_cons, List.not_mem_nil, or_false] at hr
              rcases hr with rfl | rfl | rfl
              · simpa using h
              · exact ev _ _ s.index _
              · exact ⟨Or.inr hp, fun _ => ⟨log, _, [], rfl, by simp⟩,
                  fun v hv => by simp [hp] at hv, h.just.snoc (by simp [Founded])⟩
          · rename_i hst
            have hst' : s.status = true := by simpa using hst
            have hw := h.wait hst'
            have sg : ∀ (w : W) (p : P) (res : Except PyErr V),
                SInv { s with tuners := w } (log ++ [.suggested s.index p res]) := by
              intro w p res
              refine ⟨Or.inr hp, fun _ => ?_, fun v hv => by simp [hp] at hv, h.just.snoc hw⟩
              obtain ⟨a, v, mid, hl, hm⟩ := hw
              refine ⟨a, v, mid ++ [.suggested s.index p res], by simp [hl], ?_⟩
              intro x hx
              rcases List.mem_append.1 hx with hx | hx
              · exact hm x hx
              · simp only [List.mem_singleton] at hx; subst hx; simp [SuggestsAgain]
            split at hr
            · simp only [List.mem_cons, List.not_mem_nil, or_false] at hr
              rcases hr with rfl | rfl
              · simpa using h
              · exact sg _ _ _
            · simp only [List.mem_cons, List.not_mem_nil, or_false] at hr
              rcases hr with rfl | rfl | rfl | rfl
              · simpa using h
              · exact sg _ _ _
              · simp [hst'] at hx
              · refine ⟨Or.inl rfl, by simp, ?_, h.just.snoc hw⟩
                intro v' hv'
                simp only [Option.some.injEq] at hv'
                subst hv'
                exact ⟨log, s.index, _, [], rfl, by simp⟩

theorem SInv.saved {s : State W X V} {log : List (Event W V P)} (h : SInv s log)
    (p : Snapshot W V) : SInv s (log ++ [.saved p]) := by
  refine ⟨h.excl, ?_, ?_, h.just.snoc (by simp [Founded])⟩
  · intro hst
    obtain ⟨a, v, mid, hl, hm⟩ := h.wait hst
    refine ⟨a, v, mid ++ [.saved p], by simp [hl], ?_⟩
    intro x hx
    rcases List.mem_append.1 hx with hx | hx
    · exact hm x hx
    · simp only [List.mem_singleton] at hx; subst hx; simp [SuggestsAgain]
  · intro v hv
    obtain ⟨a, i, q, mid, hl, hm⟩ := h.pend v hv
    refine ⟨a, i, q, mid ++ [.saved p], by simp [hl], ?_⟩
    intro x hx
    rcases List.mem_append.1 hx with hx | hx
    · exact hm x hx
    · simp only [List.mem_singleton] at hx; subst hx; simp [WritesAgain]

/-- The state in which a call of `iterate` that is not interrupted ends. -/
theorem trace_last_excl {H : Hierarchy W X V P C} {s : State W X V}
    (h : s.status = false ∨ s.pending = none) (r : State W X V × List (Event W V P))
    (hr : (iterateTrace H s).getLast? = some r) : r.1.status = false ∨ r.1.pending = none := by
  unfold iterateTrace at hr
  repeat' split at hr
  all_goals (simp at hr; subst hr; simp_all)

theorem trace_stop_excl {H : Hierarchy W X V P C} {s : State W X V}
    (h : s.status = false ∨ s.pending = none) (n : Nat) (hn : n ≠ 2) :
    (stopAt (iterateTrace H s) n s).1.status = false ∨
      (stopAt (iterateTrace H s) n s).1.pending = none := by
  unfold stopAt
  split
  · rename_i r hr
    unfold iterateTrace at hr
    repeat' split at hr
    all_goals
      rcases n with _ | _ | _ | _ | n
      all_goals first
        | exact absurd rfl hn
        | (simp at hr; done)
        | (simp at hr; subst hr; simp_all)
  · rw [List.getLast?_eq_some_getLast (iterateTrace_ne H s)]
    exact trace_last_excl h _ (List.getLast?_eq_some_getLast (iterateTrace_ne H s))

theorem SInv.acts {H : Hierarchy W X V P C} {s : State W X V} {log : List (Event W V P)}
    (h : SInv s log) (l : List (Act X C))
    (hl : ∀ a ∈ l, (∃ save, a = .call (.iterate save)) ∨ ∃ n, a = .iterateStopped n ∧ n ≠ 2) :
    SInv (Autotuner.acts H s l).1 (log ++ (Autotuner.acts H s l).2) := by
  induction l generalizing s log with
  | nil => simpa [Autotuner.acts] using h
  | cons a l ih =>
    have key : SInv (Autotuner.act H s a).1 (log ++ (Autotuner.act H s a).2) := by
      rcases hl a (by simp) with ⟨save, rfl⟩ | ⟨n, rfl, hn⟩
      · simp only [Autotuner.act, Autotuner.step]
        obtain ⟨r, hr, h1, h2⟩ := iterate_trace H save s
        have h' := h.trace r (List.mem_of_getLast? hr) (trace_last_excl h.excl r hr)
        rw [h1]
        rcases h2 with h2 | h2
        · rw [h2]; exact h'
        · rw [h2, ← List.append_assoc]; exact h'.saved _
      · exact h.trace _ (stopAt_mem _ n s (iterateTrace_ne H s)) (trace_stop_excl h.excl n hn)
    have := ih key (fun b hb => hl b (by simp [hb]))
    simpa [Autotuner.acts] using this

end Qtune.Autotuner
