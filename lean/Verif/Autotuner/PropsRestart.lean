import Verif.Autotuner.Props

/-! # Restarting, changing targets, progress (C07, C08, C12) -/

namespace Qtune.Autotuner

variable {W X V P C : Type}

/-! ## Helper: the status flag in terms of the log -/

/-- The status flag says whether the last successful action was a "not tuned" report. -/
def StatusInv (s : State W X V) (log : List (Event W V P)) : Prop :=
  s.status = true ↔ ∃ i v, lastAction log = some (.evaluated i v (.ok false))

theorem lastAction_snoc_success (log : List (Event W V P)) (e : Event W V P)
    (h : e.isSuccess = true) : lastAction (log ++ [e]) = some e := by
  simp [lastAction, List.filter_append, h]

theorem lastAction_snoc_other (log : List (Event W V P)) (e : Event W V P)
    (h : e.isSuccess = false) : lastAction (log ++ [e]) = lastAction log := by
  simp [lastAction, List.filter_append, h]

theorem StatusInv.other {s s' : State W X V} {log : List (Event W V P)} (h : StatusInv s log)
    (e : Event W V P) (he : e.isSuccess = false) (hs : s'.status = s.status) :
    StatusInv s' (log ++ [e]) := by
  unfold StatusInv; rw [lastAction_snoc_other _ _ he, hs]; exact h

theorem StatusInv.finish {s : State W X V} {log : List (Event W V P)}
    {save : Except PyErr Unit} {e : Event W V P} (he : e.isSuccess = true)
    (h : s.status = true ↔ ∃ i v, e = .evaluated i v (.ok false)) :
    StatusInv (Autotuner.finish save s e).1 (log ++ (Autotuner.finish save s e).2.1) := by
  have base : StatusInv s (log ++ [e]) := by
    unfold StatusInv; rw [lastAction_snoc_success _ _ he, h]; simp
  unfold Autotuner.finish
  split
  · have := base.other (s' := s) (.saved s.snapshot) rfl rfl
    simpa using this
  · exact base

theorem StatusInv.iterate {H : Hierarchy W X V P C} {s : State W X V}
    {log : List (Event W V P)} (hI : Inv H s log) (h : StatusInv s log)
    (save : Except PyErr Unit) :
    StatusInv (Autotuner.iterate H save s).1 (log ++ (Autotuner.iterate H save s).2.1) := by
  unfold Autotuner.iterate
  split
  · simpa using h
  · simpa using h
  · split
    · simpa using h
    · split
      · rename_i v hv
        have hst : s.status = false := hI.excl (by simp [hv])
        split
        · simpa using h
        · split
          · exact h.other _ rfl rfl
          · exact StatusInv.finish rfl (by simp [hst])
      · split
        · simpa using h
        · split
          · rename_i hst
            split
            · exact h.other _ rfl rfl
            · exact StatusInv.finish rfl (by simp [hst])
            · exact StatusInv.finish rfl (by simp)
          · split
            · exact h.other _ rfl rfl
            · exact StatusInv.finish rfl (by simp)

theorem StatusInv.step {H : Hierarchy W X V P C} {s : State W X V}
    {log : List (Event W V P)} (hI : Inv H s log) (h : StatusInv s log) (op : Op X C) :
    StatusInv (Autotuner.step H s op).1 (log ++ (Autotuner.step H s op).2.1) := by
  cases op with
  | iterate save => exact h.iterate hI save
  | restart => exact h.other _ rfl rfl
  | changeTargets c =>
    simp only [Autotuner.step, changeTargets]
    split
    · exact h.other _ rfl rfl
    · split <;> exact h.other _ rfl rfl
  | manual x => exact h.other _ rfl rfl

theorem StatusInv.run {H : Hierarchy W X V P C} {s : State W X V}
    {log : List (Event W V P)} (hI : Inv H s log) (h : StatusInv s log) (ops : List (Op X C)) :
    StatusInv (Autotuner.run H s ops).1 (log ++ (Autotuner.run H s ops).2) := by
  induction ops generalizing s log with
  | nil => simpa [Autotuner.run] using h
  | cons op ops ih =>
    have := ih (hI.step op) (h.step hI op)
    simpa [Autotuner.run] using this

theorem statusInv_run_fresh (H : Hierarchy W X V P C) (w : W) (x : X) (ops : List (Op X C)) :
    StatusInv (run H (fresh w x) ops).1 (run H (fresh w x) ops).2 := by
  have h0 : StatusInv (fresh w x : State W X V) ([] : List (Event W V P)) := by
    simp [StatusInv, fresh, lastAction]
  simpa using h0.run (Inv.fresh H w x) ops

/-- The autotuner after the user's call of `restart` resp. `change_targets`. -/
theorem firstEvent_of_reset (H : Hierarchy W X V P C) (save : Except PyErr Unit)
    (s : State W X V) (hlen : 0 < H.len) (hi : s.index = 0) (hp : s.pending = none)
    (hr : H.ready s.tuners s.expt s.pending = .ok true) :
    (s.status = false → (iterate H save s).2.1.head? = some (.evaluated 0 (H.read s.expt)
        (H.isTuned 0 (H.read s.expt) s.tuners s.expt).2)) ∧
    (s.status = true → (iterate H save s).2.1.head? = some (.suggested 0
        (H.tunedParams s.tuners 0) (H.nextVolt 0 (H.tunedParams s.tuners 0) s.tuners).2)) := by
  constructor
  · intro hs
    rw [iterate_eval H save s hr (by omega) hp hs, hi]
    rcases hset : H.isTuned 0 (H.read s.expt) s.tuners s.expt with ⟨⟨w2, x2⟩, (er2 | (_ | _))⟩ <;>
      cases save <;> rfl
  · intro hs
    rw [iterate_suggest H save s hr (by omega) hp hs, hi]
    rcases hset : H.nextVolt 0 (H.tunedParams s.tuners 0) s.tuners with ⟨w2, (er2 | v2)⟩ <;>
      cases save <;> rfl

/-! ## C07 -/

/-- **C07 (provable part).** After a successful `restart`, the next `iterate` evaluates tuner
0 at the voltages read from the experiment, *provided* the last successful action before
the restart was not a "not tuned" report.  Missing: the remaining case, which is false, see
`restart_reevaluates_refuted`. -/
theorem restart_reevaluates_partial (H : Hierarchy W X V P C) (w : W) (x : X)
    (ops : List (Op X C)) (save : Except PyErr Unit)
    (hlast : ∀ i v, lastAction (run H (fresh w x) ops).2 ≠ some (.evaluated i v (.ok false)))
    (hlen : 0 < H.len) (s : State W X V)
    (hs : (restart H (run H (fresh w x) ops).1).1 = s)
    (hready : H.ready s.tuners s.expt s.pending = .ok true) :
    (iterate H save s).2.1.head? = some (.evaluated 0 (H.read s.expt)
        (H.isTuned 0 (H.read s.expt) s.tuners s.expt).2) := by
  have h := statusInv_run_fresh H w x ops
  have hst : s.status = false := by
    subst hs
    show (run H (fresh w x) ops).1.status = false
    cases hb : (run H (fresh w x) ops).1.status
    · rfl
    · obtain ⟨i, v, hl⟩ := h.1 hb; exact absurd hl (hlast i v)
  subst hs
  exact (firstEvent_of_reset H save _ hlen rfl rfl hready).1 hst

example : ∀ i v, lastAction (run toy (fresh 0 0) [it, it, it]).2 ≠
    some (.evaluated i v (.ok false)) := by
  intro i v
  show lastAction _ ≠ _
  simp [run, step, toy, iterate, isComplete, fresh, finish, lastAction, Event.isSuccess]

/-- **C07 is false in general**, for every hierarchy: if the last successful action before
`restart` was a "not tuned" report, the next `iterate` does *not* evaluate tuner 0, but asks
it for new voltages (the status flag survives `restart`). -/
theorem restart_reevaluates_refuted (H : Hierarchy W X V P C) (w : W) (x : X)
    (ops : List (Op X C)) (save : Except PyErr Unit) (i : Nat) (v : V)
    (hlast : lastAction (run H (fresh w x) ops).2 = some (.evaluated i v (.ok false)))
    (hlen : 0 < H.len) (s : State W X V)
    (hs : (restart H (run H (fresh w x) ops).1).1 = s)
    (hready : H.ready s.tuners s.expt s.pending = .ok true) :
    (iterate H save s).2.1.head? = some (.suggested 0 (H.tunedParams s.tuners 0)
        (H.nextVolt 0 (H.tunedParams s.tuners 0) s.tuners).2) := by
  have h := statusInv_run_fresh H w x ops
  have hst : s.status = true := by subst hs; exact h.2 ⟨i, v, hlast⟩
  subst hs
  exact (firstEvent_of_reset H save _ hlen rfl rfl hready).2 hst

/-- Witness: the user calls `restart` in the toy hierarchy after tuner 1 has reported "not
tuned"; the next iteration asks tuner 0, which was not evaluated, for voltages. -/
example : lastAction (run toy (fresh 0 1) [it, it]).2 = some (.evaluated 1 1 (.ok false)) ∧
    ((iterate toy (.ok ()) (restart toy (run toy (fresh 0 1) [it, it]).1).1).2.1).head?
      = some (.suggested 0 () (.ok 2)) := ⟨rfl, rfl⟩

/-! ## C08 -/

/-- **C08 (provable part).** As C07, for a successful `change_targets`. -/
theorem change_targets_reevaluates_partial (H : Hierarchy W X V P C) (w : W) (x : X)
    (ops : List (Op X C)) (save : Except PyErr Unit) (c : C)
    (hlast : ∀ i v, lastAction (run H (fresh w x) ops).2 ≠ some (.evaluated i v (.ok false)))
    (hlen : 0 < H.len) (s : State W X V) (log : List (Event W V P))
    (hs : changeTargets H c (run H (fresh w x) ops).1 = (s, log, .ok ()))
    (hready : H.ready s.tuners s.expt s.pending = .ok true) :
    (iterate H save s).2.1.head? = some (.evaluated 0 (H.read s.expt)
        (H.isTuned 0 (H.read s.expt) s.tuners s.expt).2) := by
  have h := statusInv_run_fresh H w x ops
  have hst : (run H (fresh w x) ops).1.status = false := by
    cases hb : (run H (fresh w x) ops).1.status
    · rfl
    · obtain ⟨i, v, hl⟩ := h.1 hb; exact absurd hl (hlast i v)
  unfold changeTargets at hs
  split at hs
  · simp at hs
  · split at hs
    · simp at hs
    · simp only [Prod.mk.injEq] at hs
      obtain ⟨rfl, -, -⟩ := hs
      exact (firstEvent_of_reset H save _ hlen rfl rfl hready).1 hst

/-- **C08 is false in general**: as C07. -/
theorem change_targets_reevaluates_refuted (H : Hierarchy W X V P C) (w : W) (x : X)
    (ops : List (Op X C)) (save : Except PyErr Unit) (c : C) (i : Nat) (v : V)
    (hlast : lastAction (run H (fresh w x) ops).2 = some (.evaluated i v (.ok false)))
    (hlen : 0 < H.len) (s : State W X V) (log : List (Event W V P))
    (hs : changeTargets H c (run H (fresh w x) ops).1 = (s, log, .ok ()))
    (hready : H.ready s.tuners s.expt s.pending = .ok true) :
    (iterate H save s).2.1.head? = some (.suggested 0 (H.tunedParams s.tuners 0)
        (H.nextVolt 0 (H.tunedParams s.tuners 0) s.tuners).2) := by
  have h := statusInv_run_fresh H w x ops
  have hst : (run H (fresh w x) ops).1.status = true := h.2 ⟨i, v, hlast⟩
  unfold changeTargets at hs
  split at hs
  · simp at hs
  · split at hs
    · simp at hs
    · simp only [Prod.mk.injEq] at hs
      obtain ⟨rfl, -, -⟩ := hs
      exact (firstEvent_of_reset H save _ hlen rfl rfl hready).2 hst

/-- Witness for both theorems about `change_targets`. -/
example : (changeTargets toy () (run toy (fresh 0 1) [it, it]).1).2.2 = .ok () ∧
    ((iterate toy (.ok ()) (changeTargets toy () (run toy (fresh 0 1) [it, it]).1).1).2.1).head?
      = some (.suggested 0 () (.ok 2)) := ⟨rfl, rfl⟩

/-- **C08, failing call.** If `change_targets` raises, the position in the hierarchy and the
pending voltages stay as they were – also when some targets have already been changed.  So
a completed tuning is still reported complete with partly changed targets. -/
theorem change_targets_failure_keeps_position (H : Hierarchy W X V P C) (c : C)
    (s s' : State W X V) (log : List (Event W V P)) (e : PyErr)
    (h : changeTargets H c s = (s', log, .error e)) :
    s'.index = s.index ∧ s'.pending = s.pending ∧ s'.status = s.status ∧
      isComplete H s' = isComplete H s := by
  unfold changeTargets at h
  split at h
  · simp only [Prod.mk.injEq] at h; obtain ⟨rfl, -, -⟩ := h; simp
  · split at h
    · simp only [Prod.mk.injEq] at h; obtain ⟨rfl, -, -⟩ := h; simp [isComplete]
    · simp at h

/-- **C08, the change itself.** `change_targets` returns exactly if not more changes than tuners are
given and the assignments to the targets succeed; the tuners then have the new targets and the
experiment is as before.  Too many changes change nothing. -/
theorem change_targets_accepts (H : Hierarchy W X V P C) (c : C) (s : State W X V) :
    ((changeTargets H c s).2.2 = .ok () ↔
      H.nChanges c ≤ H.len ∧ (H.applyTargets c s.tuners).2 = .ok ()) ∧
    (H.nChanges c ≤ H.len → (changeTargets H c s).1.tuners = (H.applyTargets c s.tuners).1) ∧
    (H.len < H.nChanges c → (changeTargets H c s).1 = s) ∧
    (changeTargets H c s).1.expt = s.expt := by
  unfold changeTargets
  by_cases h : H.len < H.nChanges c
  · have h' : ¬ H.nChanges c ≤ H.len := by omega
    simp [h, h']
  · have h' : H.nChanges c ≤ H.len := by omega
    rw [if_neg h]
    rcases heq : H.applyTargets c s.tuners with ⟨w, _ | _⟩ <;> simp [h', h]

/-! ## C12 -/

/-- **C12 (a).** If all tuners always report "tuned", an autotuner that is at the bottom of
the hierarchy with nothing pending and not waiting for a suggestion is complete after
exactly `n` iterations: not before, and then for sure. -/
theorem progress_all_tuned (H : Hierarchy W X V P C)
    (hready : ∀ w x p, H.ready w x p = .ok true)
    (htuned : ∀ i v w x, i < H.len → (H.isTuned i v w x).2 = .ok true)
    (s : State W X V) (hi : s.index = 0) (hp : s.pending = none) (hs : s.status = false)
    (k : Nat) (hk : k ≤ H.len) :
    let s' := (run H s (List.replicate k (.iterate (.ok ())))).1
    s'.index = k ∧ (isComplete H s' = true ↔ k = H.len) := by
  have key : ∀ (k : Nat) (s : State W X V), s.index + k ≤ H.len → s.pending = none →
      s.status = false → (run H s (List.replicate k (.iterate (.ok ())))).1.index = s.index + k := by
    intro k
    induction k with
    | zero => intro s _ _ _; rfl
    | succ k ih =>
      intro s hle hp hs
      simp only [List.replicate_succ, run, step]
      rw [iterate_eval H (.ok ()) s (hready _ _ _) (by omega) hp hs]
      have ht := htuned s.index (H.read s.expt) s.tuners s.expt (by omega)
      rcases hset : H.isTuned s.index (H.read s.expt) s.tuners s.expt with ⟨⟨w2, x2⟩, r⟩
      rw [hset] at ht
      simp only at ht
      subst ht
      simp only [finish]
      rw [ih ⟨w2, x2, s.index + 1, s.status, s.pending⟩ (by show s.index + 1 + k ≤ H.len; omega)
        hp hs]
      show s.index + 1 + k = s.index + (k + 1)
      omega
  have h := key k s (by omega) hp hs
  simp only
  refine ⟨by omega, ?_⟩
  simp [isComplete, h, hi]

/-- **C12 (b).** After an evaluation that reported "not tuned", exactly two further successful
iterations ask the same tuner for voltages and write them, after which the autotuner is
at the bottom of the hierarchy again (and evaluates tuner 0 next, see
`firstEvent_of_reset`). -/
theorem progress_untuned (H : Hierarchy W X V P C)
    (hready : ∀ w x p, H.ready w x p = .ok true)
    (s s₁ : State W X V) (i : Nat) (v : V) (log : List (Event W V P))
    (h : iterate H (.ok ()) s = (s₁, log, .ok ()))
    (he : Event.evaluated i v (.ok false) ∈ log)
    (u : V) (w₂ : W) (hnext : H.nextVolt i (H.tunedParams s₁.tuners i) s₁.tuners = (w₂, .ok u))
    (hu : H.hasNaN u = false) (x₃ : X) (hset : H.setVolt u s₁.expt = (x₃, .ok ())) :
    ∃ p₂ p₃ : Snapshot W V,
      run H s₁ [.iterate (.ok ()), .iterate (.ok ())] =
        (⟨w₂, x₃, 0, false, none⟩,
          [.suggested i (H.tunedParams s₁.tuners i) (.ok u), .saved p₂,
           .wrote u (.ok ()), .saved p₃]) := by
  unfold iterate finish at h
  repeat' split at h
  all_goals
    simp only [Prod.mk.injEq, reduceCtorEq, and_false] at h
  all_goals obtain ⟨h1, h2, -⟩ := h
  all_goals subst h2
  all_goals simp at he
  rename_i _ hp hlen hst _ w x heq _ _
  obtain ⟨rfl, rfl⟩ := he
  subst h1
  have hlt : s.index < H.len := by omega
  simp only at hnext hset
  refine ⟨⟨w₂, s.index, false, some u⟩, ⟨w₂, 0, false, none⟩, ?_⟩
  simp only [run, step]
  rw [iterate_suggest H _ ⟨w, x, s.index, true, s.pending⟩ (hready _ _ _) hlt hp rfl]
  simp only [hnext, finish, State.snapshot]
  rw [iterate_write H _ ⟨w₂, x, s.index, false, some u⟩ u (hready _ _ _)
    (by show s.index ≠ H.len; omega) rfl hu]
  simp [hset, finish, State.snapshot]

example : ∃ log s₁, iterate toy (.ok ()) (fresh 0 0) = (s₁, log, .ok ()) ∧
    Event.evaluated 0 0 (.ok false) ∈ log :=
  ⟨_, _, rfl, List.mem_cons_self⟩

end Qtune.Autotuner
