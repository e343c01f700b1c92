import Verif.Autotuner.InterruptLemmas
import Verif.Autotuner.Props

/-! # Properties of interrupted calls (C207)

The user may interrupt (Ctrl-C) any call of `iterate`, `restart` and `change_targets` between any two
statements, any number of times, and go on with the same autotuner.  All theorems quantify over all
hierarchies. -/

namespace Qtune.Autotuner

variable {W X V P C : Type}

/-- **C207, the model.** A call of `iterate` that is not interrupted passes through the listed states: it
ends in the last of them, with the events of the last of them, followed by saving this very state if
the writer is reached and works. -/
theorem uninterrupted_iterate (H : Hierarchy W X V P C) (save : Except PyErr Unit)
    (s : State W X V) :
    ∃ r, (iterateTrace H s).getLast? = some r ∧ (iterate H save s).1 = r.1 ∧
      ((iterate H save s).2.1 = r.2 ∨ (iterate H save s).2.1 = r.2 ++ [.saved r.1.snapshot]) :=
  iterate_trace H save s

/-- **C207 (a), provable part.** However often calls are interrupted – except calls of `change_targets` just
after the targets were assigned –: if the tuning is reported complete, then since the last write,
restart or change of targets every tuner has reported "tuned" and has not been evaluated
afterwards, nor any tuner below it; and if evaluations leave the voltages as they found them and the user did
not change them by hand, all these evaluations were made at the voltages the experiment has now. -/
theorem interrupted_completion_certificate_partial (H : Hierarchy W X V P C) (w : W) (x : X)
    (l : List (Act X C)) (hl : ∀ c, .targetsStopped c 1 ∉ l) (s : State W X V)
    (log : List (Event W V P)) (hrun : acts H (fresh w x) l = (s, log))
    (hcomplete : isComplete H s = true) :
    ∃ pre post, log = pre ++ post ∧ CertifiedStretch H.len post ∧
      ((∀ i v w x, H.read (H.isTuned i v w x).1.2 = H.read x) →
        (∀ e ∈ post, ¬ e.IsManual) →
        ∀ i v r, Event.evaluated i v r ∈ post → v = H.read s.expt) := by
  have h := (Inv'.fresh H w x).acts l (by
    intro a ha hb
    cases a with
    | targetsStopped c n => simp only [Act.BeforeReset] at hb; subst hb; exact hl c ha
    | _ => exact hb)
  rw [hrun] at h
  simp only [List.nil_append] at h
  have hc : s.index = H.len := by simpa [isComplete] using hcomplete
  have hb : ¬ (s.status = true ∨ s.pending ≠ none) := fun hb => by
    have := h.busy hb; omega
  have hb1 : s.status = false := by
    cases hs : s.status
    · rfl
    · exact absurd (Or.inl hs) hb
  have hb2 : s.pending = none := by
    cases hs : s.pending
    · rfl
    · exact absurd (Or.inr (by simp [hs])) hb
  obtain ⟨pre, post, hl', hs, hv⟩ := h.cert hb1 hb2
  rw [hc] at hs
  exact ⟨pre, post, hl', hs, hv⟩

/-- Non-vacuity: from 1 V; each kind of iteration is interrupted somewhere, and the tuning is
completed. -/
example : isComplete toy (acts toy (fresh 0 1)
    [.iterateStopped 1, .call it, .iterateStopped 1, .call it, .iterateStopped 1, .call it,
      .iterateStopped 1, .iterateStopped 2, .call it, .call it, .restartStopped 1,
      .call it, .call it]).1 = true ∧
    isComplete toy (acts toy (fresh 0 1)
    [.iterateStopped 1, .call it, .iterateStopped 1, .call it, .iterateStopped 1, .call it,
      .iterateStopped 1, .iterateStopped 2, .call it, .call it]).1 = false := by decide

/-- **C207 (b), provable part.** In histories of iterations of which any are interrupted, but none before
its third statement: a tuner is asked for voltages only after it has reported "not tuned", and since then
nothing has been evaluated or written; and only voltages are written that a tuner has suggested, and
since then nothing but the same voltages has been written and nothing evaluated. -/
theorem interrupted_actions_founded_partial (H : Hierarchy W X V P C) (w : W) (x : X)
    (l : List (Act X C))
    (hl : ∀ a ∈ l, (∃ save, a = .call (.iterate save)) ∨ ∃ n, a = .iterateStopped n ∧ n ≠ 2)
    (pre post : List (Event W V P)) :
    (∀ i p r, (acts H (fresh w x) l).2 = pre ++ .suggested i p r :: post →
      ∃ a v mid, pre = a ++ .evaluated i v (.ok false) :: mid ∧ ∀ e ∈ mid, SuggestsAgain i e) ∧
    (∀ v r, (acts H (fresh w x) l).2 = pre ++ .wrote v r :: post →
      ∃ a i p mid, pre = a ++ .suggested i p (.ok v) :: mid ∧ ∀ e ∈ mid, WritesAgain v e) := by
  have h₀ : SInv (fresh w x : State W X V) ([] : List (Event W V P)) :=
    ⟨Or.inl rfl, by simp [fresh], by simp [fresh], AllAt.nil _⟩
  have h := (h₀.acts (H := H) l hl).just
  simp only [List.nil_append] at h
  exact ⟨fun i p r hlog => h pre _ post hlog, fun v r hlog => h pre _ post hlog⟩

/-- Non-vacuity: tuner 1 is evaluated twice, asked twice, and its voltages are written twice. -/
example : (acts toy (fresh 0 1)
    [.call it, .iterateStopped 1, .call it, .iterateStopped 1, .call it, .iterateStopped 1,
      .call it]).2 =
    [.evaluated 0 1 (.ok true), .saved ⟨1, 1, false, none⟩,
      .evaluated 1 1 (.ok false), .evaluated 1 1 (.ok false), .saved ⟨1, 1, true, none⟩,
      .suggested 1 () (.ok 2), .suggested 1 () (.ok 2), .saved ⟨1, 1, false, some 2⟩,
      .wrote 2 (.ok ()), .wrote 2 (.ok ()), .saved ⟨1, 0, false, none⟩] := by rfl

/-- **C207 (c).** Writing voltages may be interrupted anywhere: if writing the same voltages once more has no
further effect and the setup is still coherent, the next `iterate` ends in the very state in which the
uninterrupted call would have ended. -/
theorem interrupted_write_recovers (H : Hierarchy W X V P C) (save : Except PyErr Unit)
    (s : State W X V) (v : V) (x : X) (n : Nat) (hn : n < 3)
    (hready : ∀ x p, H.ready s.tuners x p = .ok true)
    (hidx : s.index < H.len) (hp : s.pending = some v) (hnan : H.hasNaN v = false)
    (hset : H.setVolt v s.expt = (x, .ok ())) (hagain : H.setVolt v x = (x, .ok ())) :
    (iterate H save (act H s (.iterateStopped n)).1).1 = (iterate H save s).1 ∧
      (act H s (.iterateStopped n)).2 = (if n = 0 then [] else [.wrote v (.ok ())]) ∧
      .wrote v (.ok ()) ∈ (iterate H save (act H s (.iterateStopped n)).1).2.1 := by
  have hc : isComplete H s = false := by
    simp only [isComplete, beq_eq_false_iff_ne, ne_eq]; omega
  have hc0 : (0 == H.len) = false := by simp only [beq_eq_false_iff_ne, ne_eq]; omega
  have hc1 : (s.index == H.len) = false := by simpa [isComplete] using hc
  rcases n with _ | _ | _ | n
  all_goals first
    | (exfalso; omega)
    | (cases save <;> simp [act, stopAt, iterateTrace, iterate, isComplete, hready, hp, hnan, hset,
        hagain, hc0, hc1, finish])

example : (iterate toy (.ok ()) (act toy ⟨0, 1, 1, false, some 2⟩ (.iterateStopped 2)).1).1.expt = 2 ∧
    (act toy ⟨0, 1, 1, false, some 2⟩ (.iterateStopped 2)).1.pending = some 2 := by decide

/-- **C207 is false in general**, for every hierarchy: if `iterate` is interrupted between recording the
suggested voltages and marking the suggestion as done, the next `iterate` writes the voltages, and the one after
that asks tuner 0 for further voltages although tuner 0 has not been evaluated at the new ones. -/
theorem interrupted_suggestion_refuted (H : Hierarchy W X V P C) (save save' : Except PyErr Unit)
    (s : State W X V) (w : W) (v : V) (x : X)
    (hready : ∀ w x p, H.ready w x p = .ok true) (hidx : s.index < H.len) (hp : s.pending = none)
    (hst : s.status = true)
    (hnext : H.nextVolt s.index (H.tunedParams s.tuners s.index) s.tuners = (w, .ok v))
    (hnan : H.hasNaN v = false) (hset : H.setVolt v s.expt = (x, .ok ())) :
    ∃ s₁ s₂ rest rest',
      act H s (.iterateStopped 2) =
        (s₁, [.suggested s.index (H.tunedParams s.tuners s.index) (.ok v)]) ∧
      ((iterate H save s₁).1 = s₂ ∧ (iterate H save s₁).2.1 = .wrote v (.ok ()) :: rest ∧
        ∀ e ∈ rest, ∃ p, e = .saved p) ∧
      (iterate H save' s₂).2.1 =
        .suggested 0 (H.tunedParams w 0) (H.nextVolt 0 (H.tunedParams w 0) w).2 :: rest' := by
  have hc1 : (s.index == H.len) = false := by simp only [beq_eq_false_iff_ne, ne_eq]; omega
  have hc0 : (0 == H.len) = false := by simp only [beq_eq_false_iff_ne, ne_eq]; omega
  have hle : ¬ H.len ≤ s.index := by omega
  have hpos : 0 < H.len := by omega
  have hle0 : ¬ H.len ≤ 0 := by omega
  have h1 : act H s (.iterateStopped 2) =
      (⟨w, s.expt, s.index, true, some v⟩,
        [.suggested s.index (H.tunedParams s.tuners s.index) (.ok v)]) := by
    simp [act, stopAt, iterateTrace, isComplete, hready, hc1, hp, hle, hst, hnext]
  have h2 : ∀ (save : Except PyErr Unit), (iterate H save (⟨w, s.expt, s.index, true, some v⟩ :
      State W X V)).1 = ⟨w, x, 0, true, none⟩ ∧
      ∃ rest, (iterate H save (⟨w, s.expt, s.index, true, some v⟩ : State W X V)).2.1 =
        .wrote v (.ok ()) :: rest ∧ ∀ e ∈ rest, ∃ p, e = .saved p := by
    intro save
    cases save <;> simp [iterate, isComplete, hready, hc1, hnan, hset, finish]
  have h3 : ∃ rest', (iterate H save' (⟨w, x, 0, true, none⟩ : State W X V)).2.1 =
      .suggested 0 (H.tunedParams w 0) (H.nextVolt 0 (H.tunedParams w 0) w).2 :: rest' := by
    rcases heq : H.nextVolt 0 (H.tunedParams w 0) w with ⟨w', _ | v'⟩ <;> cases save' <;>
      simp [iterate, isComplete, hready, hc0, hle0, heq, finish]
  obtain ⟨ha, rest, hb, hc⟩ := h2 save
  obtain ⟨rest', hd⟩ := h3
  exact ⟨_, _, rest, rest', h1, ⟨ha, hb, hc⟩, hd⟩

/-- Witness: tuner 1 suggests 2 V, and the call is interrupted; afterwards tuner 0 is asked for
voltages although it was last evaluated at 1 V. -/
example : (acts toy (fresh 0 1)
    [.call it, .call it, .iterateStopped 2, .call it, .call it]).2 =
    [.evaluated 0 1 (.ok true), .saved ⟨1, 1, false, none⟩,
      .evaluated 1 1 (.ok false), .saved ⟨1, 1, true, none⟩,
      .suggested 1 () (.ok 2), .wrote 2 (.ok ()), .saved ⟨1, 0, true, none⟩,
      .suggested 0 () (.ok 2), .saved ⟨1, 0, false, some 2⟩] := rfl

/-- **C207, interrupted changes of targets**, for every hierarchy: a call of `change_targets` that is interrupted just
after the targets were assigned leaves the tuners with the new targets, and a complete tuning is still
reported complete; every further `iterate` raises. -/
theorem interrupted_targets_refuted (H : Hierarchy W X V P C) (save : Except PyErr Unit) (c : C)
    (s : State W X V) (w : W) (hlen : H.nChanges c ≤ H.len)
    (happly : H.applyTargets c s.tuners = (w, .ok ())) (hcomplete : isComplete H s = true) :
    (act H s (.targetsStopped c 1)).1.tuners = w ∧
      isComplete H (act H s (.targetsStopped c 1)).1 = true ∧
      (iterate H save (act H s (.targetsStopped c 1)).1).2.2 ≠ .ok () ∧
      (iterate H save (act H s (.targetsStopped c 1)).1).2.1 = [] := by
  have hlen' : ¬ H.len < H.nChanges c := by omega
  have h1 : act H s (.targetsStopped c 1) = ({ s with tuners := w }, [.targetsChanged true]) := by
    simp [act, stopAt, targetsTrace, hlen', happly]
  rw [h1]
  refine ⟨rfl, hcomplete, ?_, ?_⟩
  · obtain ⟨e, he, -⟩ := iterate_pure_error H save { s with tuners := w }
      (Or.inr hcomplete)
    rw [he]; simp
  · obtain ⟨e, he, -⟩ := iterate_pure_error H save { s with tuners := w }
      (Or.inr hcomplete)
    rw [he]

example : isComplete toy (acts toy (fresh 0 2) [.call it, .call it, .targetsStopped () 1]).1 = true ∧
    toy.nChanges () ≤ toy.len := by decide

end Qtune.Autotuner
