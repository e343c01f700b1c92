import Verif.Autotuner.Lemmas

/-! # Properties of the autotuner's scheduling (C01–C08, C12, C13, C76)

Every theorem quantifies over all hierarchies (tuners, solvers, estimators, evaluators and
experiments with arbitrary behaviour) and over all sequences of user calls. -/

namespace Qtune.Autotuner

variable {W X V P C : Type}

/-! ## A small concrete hierarchy, used to show that hypotheses can be met

One gate, whose voltage is an integer; `-1000` plays the role of NaN.  Tuner `i` is tuned
when the voltage is at least `i + 1`, and otherwise asks for one more volt.  The tuners
remember the voltage of the last evaluation. -/

/-- Toy hierarchy of two tuners (not part of qtune). -/
def toy : Hierarchy Int Int Int Unit Unit where
  len := 2
  ready _ _ _ := .ok true
  read x := x
  hasNaN v := v == -1000
  setVolt v _ := (v, .ok ())
  isTuned i v _ x := ((v, x), .ok (decide ((i : Int) + 1 ≤ v)))
  nextVolt _ _ w := (w, .ok (w + 1))
  tunedParams _ _ := ()
  restartTuners _ w := (w, .ok ())
  nChanges _ := 0
  applyTargets _ w := (w, .ok ())

/-- `iterate` with a working writer. -/
abbrev it : Op Int Unit := .iterate (.ok ())

/-! ## C01 -/

/-- **C01.** Whenever a history that starts with a fresh autotuner reaches a state in which
tuning is reported complete, the log ends with a stretch in which all tuners `0..n-1`
reported "tuned" in this order, none reported "not tuned", and no voltages were written,
no restart and no target change took place.  If evaluations leave the voltages as they
found them and the user did not change them by hand during the stretch, all these
evaluations were made at the voltages the experiment has now. -/
theorem completion_certificate (H : Hierarchy W X V P C) (w : W) (x : X)
    (ops : List (Op X C)) (s : State W X V) (log : List (Event W V P))
    (hrun : run H (fresh w x) ops = (s, log)) (hcomplete : isComplete H s = true) :
    ∃ pre post, log = pre ++ post ∧ TunedStretch H.len post ∧
      ((∀ i v w x, H.read (H.isTuned i v w x).1.2 = H.read x) →
        (∀ e ∈ post, ¬ e.IsManual) →
        ∀ i v r, Event.evaluated i v r ∈ post → v = H.read s.expt) := by
  have h := inv_run_fresh H w x ops
  rw [hrun] at h
  simp only at h
  have hc : s.index = H.len := by simpa [isComplete] using hcomplete
  have hb : ¬ (s.status = true ∨ s.pending ≠ none) := fun hb => by
    have := h.busy hb; omega
  have hb1 : s.status = false := by
    cases hs : s.status
    · rfl
    · exact absurd (Or.inl hs) hb
  have hb2 : s.pending = none := by
    cases hs : s.pending
    · rfl
    · exact absurd (Or.inr (by simp [hs])) hb
  obtain ⟨pre, post, hl, hs, hv⟩ := h.cert hb1 hb2
  rw [hc] at hs
  exact ⟨pre, post, hl, hs, hv⟩

/-- Non-vacuity: from 0 V the toy hierarchy completes after two corrections. -/
example : isComplete toy (run toy (fresh 0 0) (List.replicate 9 it)).1 = true := by decide

/-! ## C02 -/

/-- **C02.** Whenever tuner `i` is evaluated, all tuners `0..i-1` have reported "tuned", in
this order, none has reported "not tuned", and nothing was written, restarted or retargeted
since the first of these reports. -/
theorem hierarchy_order (H : Hierarchy W X V P C) (w : W) (x : X) (ops : List (Op X C))
    (pre post : List (Event W V P)) (i : Nat) (v : V) (r : Except PyErr Bool)
    (hlog : (run H (fresh w x) ops).2 = pre ++ .evaluated i v r :: post) :
    i < H.len ∧ ∃ a b, pre = a ++ b ∧ TunedStretch i b :=
  (inv_run_fresh H w x ops).just pre _ post hlog

example : ∃ pre post, (run toy (fresh 0 0) (List.replicate 9 it)).2
    = pre ++ .evaluated 1 1 (.ok false) :: post :=
  ⟨_, _, show _ = [.evaluated 0 0 (.ok false), .saved ⟨0, 0, true, none⟩,
      .suggested 0 () (.ok 1), .saved ⟨0, 0, false, some 1⟩,
      .wrote 1 (.ok ()), .saved ⟨0, 0, false, none⟩,
      .evaluated 0 1 (.ok true), .saved ⟨1, 1, false, none⟩] ++ _ from rfl⟩

/-! ## C03 -/

/-- **C03 (a).** An `iterate` that returns normally performs exactly one action – one
evaluation, one suggestion or one write – which did not raise, and then saves the state it
leaves behind. -/
theorem one_action_per_iterate (H : Hierarchy W X V P C) (save : Except PyErr Unit)
    (s s' : State W X V) (log : List (Event W V P))
    (h : iterate H save s = (s', log, .ok ())) :
    ∃ e : Event W V P, log = [e, .saved s'.snapshot] ∧ e.IsAction ∧ ¬ e.Raised := by
  unfold iterate finish at h
  repeat' split at h
  all_goals first
    | (simp at h; done)
    | (simp only [Prod.mk.injEq] at h
       obtain ⟨h1, h2, -⟩ := h
       subst h1; subst h2
       exact ⟨_, rfl, by simp [Event.IsAction], by simp [Event.Raised]⟩)

example : (iterate toy (.ok ()) (fresh 0 0)).2.2 = .ok () := rfl

/-- **C03 (b).** Voltages are written only if they were suggested by a tuner, and since that
suggestion nothing but saving, failed attempts to write the same voltages, failed target
changes and manual changes took place (in particular no evaluation, no restart, no
successful write). -/
theorem only_suggested_voltages_written (H : Hierarchy W X V P C) (w : W) (x : X)
    (ops : List (Op X C)) (pre post : List (Event W V P)) (v : V) (r : Except PyErr Unit)
    (hlog : (run H (fresh w x) ops).2 = pre ++ .wrote v r :: post) :
    ∃ a i p mid, pre = a ++ .suggested i p (.ok v) :: mid ∧
      ∀ e ∈ mid, QuietBeforeWrite v e :=
  ((inv_run_fresh H w x ops).just pre _ post hlog).2

example : ∃ pre post, (run toy (fresh 0 0) (List.replicate 9 it)).2
    = pre ++ .wrote 1 (.ok ()) :: post :=
  ⟨_, _, show _ = [.evaluated 0 0 (.ok false), .saved ⟨0, 0, true, none⟩,
      .suggested 0 () (.ok 1), .saved ⟨0, 0, false, some 1⟩] ++ _ from rfl⟩

/-! ## C04 -/

/-- **C04 (a).** Voltages that contain NaN are never handed to the experiment. -/
theorem nan_never_written (H : Hierarchy W X V P C) (w : W) (x : X) (ops : List (Op X C))
    (v : V) (r : Except PyErr Unit)
    (hlog : Event.wrote v r ∈ (run H (fresh w x) ops).2) : H.hasNaN v = false := by
  obtain ⟨pre, post, hl⟩ := List.append_of_mem hlog
  exact ((inv_run_fresh H w x ops).just pre _ post hl).1

/-- **C04 (b).** Once NaN voltages are pending, every `iterate` raises, does nothing and
changes nothing, no matter how often it is called. -/
theorem nan_pending_stuck (H : Hierarchy W X V P C) (s : State W X V) (v : V)
    (hp : s.pending = some v) (hn : H.hasNaN v = true) (saves : List (Except PyErr Unit)) :
    run H s (saves.map .iterate) = (s, []) ∧
      ∀ save, (iterate H save s).2.2 ≠ .ok () ∧
        (H.ready s.tuners s.expt s.pending = .ok true → isComplete H s = false →
          (iterate H save s).2.2 = .error errNaN) := by
  have key : ∀ save, iterate H save s = (s, [], (iterate H save s).2.2) ∧
      (iterate H save s).2.2 ≠ .ok () ∧
        (H.ready s.tuners s.expt s.pending = .ok true → isComplete H s = false →
          (iterate H save s).2.2 = .error errNaN) := by
    intro save
    unfold iterate
    split
    · rename_i h; simp [h]
    · rename_i h; simp [h]
    · rename_i h
      split
      · rename_i h2; simp [h2]
      · simp [hp, hn]
  refine ⟨?_, fun save => (key save).2⟩
  induction saves with
  | nil => rfl
  | cons a l ih => simp only [List.map_cons, run, step]; rw [(key a).1]; simp [ih]

/-- **C04 (c).** `restart` and a successful `change_targets` drop the pending voltages, so
that they resolve this situation. -/
theorem nan_pending_resolved (H : Hierarchy W X V P C) (s : State W X V) :
    (restart H s).1.pending = none ∧
      ∀ c, (changeTargets H c s).2.2 = .ok () → (changeTargets H c s).1.pending = none := by
  refine ⟨rfl, ?_⟩
  intro c h
  unfold changeTargets at h ⊢
  split at h
  · simp at h
  · rename_i hlen
    rw [if_neg hlen]
    split at h
    · simp at h
    · rfl

/-- The toy hierarchy gets stuck on NaN: `-1001 + 1` plays the role of NaN. -/
example : (run toy (fresh 0 (-1001)) [it, it]).1.pending = some (-1000) ∧
    toy.hasNaN (-1000) = true := by decide

/-! ## C05 -/

/-- **C05.** If the tuning is complete, `iterate` raises; if the setup is not coherent
(`ready_to_tune` is false or raises), `iterate` raises; in both cases it calls nothing and
changes nothing. -/
theorem iterate_pure_error (H : Hierarchy W X V P C) (save : Except PyErr Unit)
    (s : State W X V) :
    (H.ready s.tuners s.expt s.pending ≠ .ok true ∨ isComplete H s = true) →
      ∃ e, iterate H save s = (s, [], .error e) ∧
        (H.ready s.tuners s.expt s.pending = .ok true → e = errComplete) ∧
        (H.ready s.tuners s.expt s.pending = .ok false → e = errIncomplete) := by
  intro h
  unfold iterate
  cases hr : H.ready s.tuners s.expt s.pending with
  | error e => exact ⟨e, rfl, by simp, by simp⟩
  | ok b =>
    cases b with
    | false => exact ⟨_, rfl, by simp, by simp⟩
    | true =>
      have : isComplete H s = true := by simpa [hr] using h
      exact ⟨errComplete, by simp [this], by simp, by simp⟩

example : isComplete toy (run toy (fresh 0 2) [it, it]).1 = true := by decide

/-! ## C06 -/

/-- **C06.** If the evaluation, the suggestion or the write inside `iterate` raises, then
`iterate` raises that exception, the position in the hierarchy, the status and the pending
voltages are unchanged, nothing is saved, and the next `iterate` (if the setup is still
coherent) attempts the same action: the same tuner is evaluated at the voltages read then,
the same tuner is asked for voltages, or the same voltages are written. -/
theorem failed_iterate_retry (H : Hierarchy W X V P C) (save save' : Except PyErr Unit)
    (s s' : State W X V) (log : List (Event W V P)) (res : Except PyErr Unit)
    (h : iterate H save s = (s', log, res)) (e : Event W V P) (he : e ∈ log)
    (hraise : e.Raised) (hready : H.ready s'.tuners s'.expt s'.pending = .ok true) :
    log = [e] ∧ (s'.index = s.index ∧ s'.status = s.status ∧ s'.pending = s.pending) ∧
    (∃ e₂ rest, (iterate H save' s').2.1 = e₂ :: rest ∧
      match e, e₂ with
      | .evaluated i _ (.error er), .evaluated i' v' _ =>
          res = .error er ∧ i' = i ∧ v' = H.read s'.expt
      | .suggested i _ (.error er), .suggested i' p' _ =>
          res = .error er ∧ i' = i ∧ p' = H.tunedParams s'.tuners i
      | .wrote v (.error er), .wrote v' _ => res = .error er ∧ v' = v
      | _, _ => False) := by
  unfold iterate at h
  split at h
  · simp at h; obtain ⟨-, rfl, -⟩ := h; simp at he
  · simp at h; obtain ⟨-, rfl, -⟩ := h; simp at he
  · split at h
    · simp at h; obtain ⟨-, rfl, -⟩ := h; simp at he
    · rename_i hnc
      split at h
      · rename_i v hv
        split at h
        · simp at h; obtain ⟨-, rfl, -⟩ := h; simp at he
        · rename_i hnan
          split at h
          · rename_i x er heq
            simp only [Prod.mk.injEq] at h
            obtain ⟨rfl, rfl, rfl⟩ := h
            simp only [List.mem_singleton] at he
            subst he
            refine ⟨rfl, ⟨rfl, rfl, rfl⟩, ?_⟩
            rw [iterate_write H save' _ v hready (by simpa [isComplete] using hnc) hv
              (by simpa using hnan)]
            simp only
            cases hset : H.setVolt v x with
            | mk x2 r2 => cases r2 <;> cases save' <;> exact ⟨_, _, rfl, rfl, rfl⟩
          · rename_i x heq
            unfold finish at h
            split at h <;>
            · simp only [Prod.mk.injEq] at h
              obtain ⟨rfl, rfl, rfl⟩ := h
              simp at he
              rcases he with rfl | rfl <;> simp [Event.Raised] at hraise
      · rename_i hp
        split at h
        · simp at h; obtain ⟨-, rfl, -⟩ := h; simp at he
        · rename_i hlt
          split at h
          · rename_i hst
            split at h
            · rename_i w x er heq
              simp only [Prod.mk.injEq] at h
              obtain ⟨rfl, rfl, rfl⟩ := h
              simp only [List.mem_singleton] at he
              subst he
              refine ⟨rfl, ⟨rfl, rfl, rfl⟩, ?_⟩
              rw [iterate_eval H save' _ hready (by simpa using hlt) hp hst]
              simp only
              rcases hset : H.isTuned s.index (H.read x) w x with ⟨⟨w2, x2⟩, (er2 | (_ | _))⟩ <;>
                cases save' <;> exact ⟨_, _, rfl, rfl, rfl, rfl⟩
            all_goals
              unfold finish at h
              split at h <;>
              · simp only [Prod.mk.injEq] at h
                obtain ⟨rfl, rfl, rfl⟩ := h
                simp at he
                rcases he with rfl | rfl <;> simp [Event.Raised] at hraise
          · rename_i hst
            split at h
            · rename_i w er heq
              simp only [Prod.mk.injEq] at h
              obtain ⟨rfl, rfl, rfl⟩ := h
              simp only [List.mem_singleton] at he
              subst he
              refine ⟨rfl, ⟨rfl, rfl, rfl⟩, ?_⟩
              rw [iterate_suggest H save' _ hready (by simpa using hlt) hp (by simpa using hst)]
              simp only
              rcases hset : H.nextVolt s.index (H.tunedParams w s.index) w with ⟨w2, (er2 | v2)⟩ <;>
                cases save' <;> exact ⟨_, _, rfl, rfl, rfl, rfl⟩
            · unfold finish at h
              split at h <;>
              · simp only [Prod.mk.injEq] at h
                obtain ⟨rfl, rfl, rfl⟩ := h
                simp at he
                rcases he with rfl | rfl <;> simp [Event.Raised] at hraise

/-- A hierarchy whose tuner raises at negative voltages. -/
def toyRaising : Hierarchy Int Int Int Unit Unit :=
  { toy with isTuned := fun _ v _ x => ((v, x), if v < 0 then .error (.other 7) else .ok true) }

example : ∃ e ∈ (iterate toyRaising (.ok ()) (fresh 0 (-3))).2.1, e.Raised :=
  ⟨.evaluated 0 (-3) (.error (.other 7)), List.mem_singleton.2 rfl, trivial⟩

end Qtune.Autotuner
