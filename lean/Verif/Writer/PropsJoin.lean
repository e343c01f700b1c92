import Verif.Writer.Props

/-! # When `join` returns although writes fail -/

namespace Qtune.Writer

variable {σ : Type}

/-- The state without the events before the last restart. -/
def State.recent (s : State σ) : State σ := { s with past := [] }

/-- The invariant of all executions: as without failures, or a write failed since the last restart. -/
def Fine (s : State σ) : Prop := Good s.recent ∨ ∃ t, .failed t ∈ s.log

theorem fine_caller {s s' : State σ} (hi : Fine s) (h : callerStep s = some s') : Fine s' := by
  have same : s'.past = s.past → callerStep s.recent = some s'.recent → (∀ t, .failed t ∈ s.log → .failed t ∈ s'.log) →
      Fine s' := fun _ h1 h2 => hi.imp (good_caller · h1) fun ⟨t, ht⟩ => ⟨t, h2 t ht⟩
  obtain ⟨obj, cmds, pc, queue, unf, worker, past, log⟩ := s
  simp only [callerStep] at h
  cases pc with
  | ready =>
    cases cmds with
    | nil => cases h
    | cons c cmds =>
      cases c with
      | mutate v => cases h; exact same rfl rfl fun t ht => ht
      | write target =>
        simp only at h
        split at h <;> rename_i ha <;> cases h
        · exact same rfl (by simp [callerStep, State.recent, ha]) fun t ht => by simp [ht]
        · exact same rfl (by simp [callerStep, State.recent, ha]) fun t ht => by simp [ht]
      | join => cases h; exact same rfl rfl fun t ht => ht
      | restart => cases h; exact same rfl rfl fun t ht => ht
  | put t => cases h; exact same rfl rfl fun t ht => ht
  | joinPut r => cases h; exact same rfl rfl fun t ht => ht
  | joinWait r =>
    simp only at h
    split at h <;> rename_i ha <;> cases h
    exact same rfl (by simp [callerStep, State.recent, ha]) fun t ht => ht
  | joinThread r =>
    simp only at h
    split at h
    · cases h
    · rename_i ha
      split at h <;> rename_i hr <;> cases h
      · exact .inl (good_init obj cmds)
      · exact same rfl (by simp [callerStep, State.recent, ha, hr]) fun t ht => by simp [ht]

theorem fine_worker {fails : Task σ → Bool} {s s' : State σ} (hi : Fine s) (h : workerStep fails s = some s') :
    Fine s' := by
  have same : workerStep (fun _ => false) s.recent = some s'.recent → (∀ t, .failed t ∈ s.log → .failed t ∈ s'.log) →
      Fine s' := fun h1 h2 => hi.imp (good_worker (fun _ => rfl) · h1) fun ⟨t, ht⟩ => ⟨t, h2 t ht⟩
  obtain ⟨obj, cmds, pc, queue, unf, worker, past, log⟩ := s
  simp only [workerStep] at h
  cases worker with
  | idle =>
    simp only at h
    cases queue with
    | nil => cases h
    | cons t queue => cases h; exact same rfl fun t ht => ht
  | got t =>
    cases t with
    | none => cases h; exact same rfl fun t ht => ht
    | some t =>
      simp only at h
      split at h <;> cases h
      · exact .inr ⟨t, by simp⟩
      · exact same rfl fun t ht => by simp [ht]
  | finishing stop => cases h; exact same rfl fun t ht => ht
  | exiting => cases h; exact same rfl fun t ht => by simp [ht]
  | dead => cases h

theorem fine_run (fails : Task σ → Bool) : ∀ (as : List Actor) (s : State σ), Fine s → Fine (run fails as s)
  | [], _, h => h
  | a :: as, s, h => by
    refine fine_run fails as _ ?_
    cases a with
    | caller =>
      simp only [step]
      cases h' : callerStep s with
      | none => exact h
      | some s' => exact fine_caller h h'
    | worker =>
      simp only [step]
      cases h' : workerStep fails s with
      | none => exact h
      | some s' => exact fine_worker h h'

/-- `join` waits forever: it has found the worker alive and queued its end mark, but the worker died of a failed
write before it came to the end mark. -/
structure Hangs (s : State σ) : Prop where
  waits : ∃ r, s.pc = .joinWait r
  dead : s.worker = .dead
  left : 0 < s.unfinished
  failed : ∃ t, .failed t ∈ s.log

theorem stuck_recent {fails : Task σ → Bool} {s : State σ} (h : Stuck fails s) : Stuck fails s.recent := by
  obtain ⟨obj, cmds, pc, queue, unf, worker, past, log⟩ := s
  obtain ⟨hc, hw⟩ := h
  constructor
  · simp only [callerStep] at hc
    cases pc with
    | ready =>
      cases cmds with
      | nil => rfl
      | cons c cmds =>
        cases c with
        | write target => simp only at hc; split at hc <;> cases hc
        | _ => cases hc
    | put t => cases hc
    | joinPut r => cases hc
    | joinWait r =>
      simp only at hc
      split at hc <;> rename_i ha
      · cases hc
      · simp [callerStep, State.recent, ha]
    | joinThread r =>
      simp only at hc
      split at hc <;> rename_i ha
      · simp [callerStep, State.recent, ha]
      · split at hc <;> cases hc
  · simp only [workerStep] at hw
    cases worker with
    | idle =>
      simp only at hw
      cases queue with
      | nil => rfl
      | cons t queue => cases hw
    | got t =>
      cases t with
      | none => cases hw
      | some t =>
        simp only at hw
        split at hw <;> cases hw
    | finishing stop => cases hw
    | exiting => cases hw
    | dead => rfl

theorem stuck_cases {fails : Task σ → Bool} {s : State σ} (hi : Fine s) (hf : Failing fails s) (h : Stuck fails s) :
    s.finished ∨ Hangs s := by
  rcases hi with hg | hfail
  · have hfin : s.recent.finished := progress hg (stuck_recent h)
    exact .inl hfin
  · have hst := hf.stopped hfail
    obtain ⟨obj, cmds, pc, queue, unf, worker, past, log⟩ := s
    obtain ⟨hc, hw⟩ := h
    simp only [callerStep] at hc
    simp only [workerStep] at hw
    have hdead : worker = .dead := by
      cases worker with
      | dead => rfl
      | exiting => cases hw
      | finishing b => cases hw
      | idle => exact hst.elim
      | got t => exact hst.elim
    subst hdead
    cases pc with
    | ready =>
      cases cmds with
      | nil => exact .inl ⟨rfl, trivial⟩
      | cons c cmds =>
        cases c with
        | write target => simp only at hc; split at hc <;> cases hc
        | _ => cases hc
    | put t => cases hc
    | joinPut r => cases hc
    | joinWait r =>
      simp only at hc
      split at hc
      · cases hc
      · rename_i h0
        exact .inr ⟨⟨r, rfl⟩, rfl, Nat.pos_of_ne_zero h0, hfail⟩
    | joinThread r =>
      simp only at hc
      split at hc
      · rename_i ha; simp [Worker.alive] at ha
      · split at hc <;> cases hc

theorem hangs_forever {s : State σ} (h : Hangs s) (fails : Task σ → Bool) (schedule : List Actor) :
    run fails schedule s = s := by
  obtain ⟨r, hr⟩ := h.waits
  induction schedule with
  | nil => rfl
  | cons a as ih =>
    have : step fails a s = s := by
      cases a
      · simp only [step, callerStep, hr, if_neg (Nat.pos_iff_ne_zero.1 h.left), Option.getD_none]
      · simp only [step, workerStep, h.dead, Option.getD_none]
    simp only [run, this, ih]

/-- C57, in every fair schedule (both actors get infinitely many turns) and for all failing writes: the program
finishes, so every call of `join` returns, or it comes to a `join` that waits for a worker that died of a failed
write.  A call of `join` that finds the worker dead returns.  Missing: writes that fail while `join` waits, see
`join_refuted`. -/
theorem join_partial (fails : Task σ → Bool) (obj : σ) (cmds : List (Cmd σ)) :
    (∀ schedule : Nat → Actor, (∀ a n, ∃ m, n ≤ m ∧ schedule m = a) →
      (∃ n, (run fails ((List.range n).map schedule) (init obj cmds)).finished) ∨
      ∃ n, Hangs (run fails ((List.range n).map schedule) (init obj cmds))) ∧
    ∀ schedule rest, let s := run fails schedule (init obj cmds)
      s.pc = .ready → s.cmds = .join :: rest → s.worker = .dead →
        run fails [.caller, .caller] s = { s with cmds := rest, log := s.log ++ [.joined] } := by
  constructor
  · intro schedule hfair
    obtain ⟨n, hn⟩ := fair_stuck fails obj cmds schedule hfair
    rcases stuck_cases (fine_run fails _ (init obj cmds) (.inl (good_init obj cmds)))
      (failing_run fails _ _ (failing_init fails obj cmds)) hn with h | h
    · exact .inl ⟨n, h⟩
    · exact .inr ⟨n, h⟩
  · intro schedule rest s hpc hcmds hw
    clear_value s
    obtain ⟨obj, cmds, pc, queue, unf, worker, past, log⟩ := s
    simp only at hpc hcmds hw
    subst hpc hcmds hw
    rfl

/-- C57: if no write fails, every program finishes in every fair schedule, so every call of `join` returns. -/
theorem join_without_failures (fails : Task σ → Bool) (hok : ∀ t, fails t = false) (obj : σ) (cmds : List (Cmd σ))
    (schedule : Nat → Actor) (hfair : ∀ a n, ∃ m, n ≤ m ∧ schedule m = a) :
    ∃ n, (run fails ((List.range n).map schedule) (init obj cmds)).finished := by
  refine ((join_partial fails obj cmds).1 schedule hfair).resolve_right fun ⟨n, hn⟩ => ?_
  obtain ⟨t, ht⟩ := hn.failed
  obtain ⟨before, after, h⟩ := List.append_of_mem ht
  have := (failing_run fails ((List.range n).map schedule) _ (failing_init fails obj cmds)).failed before t after h
  rw [hok] at this
  cases this.1

/-- Alternating turns are a fair schedule. -/
example : ∃ n, (run (fun _ => false) ((List.range n).map fun i => if i % 2 = 0 then Actor.caller else .worker)
    (init 1 [.write "a", .join])).finished :=
  join_without_failures _ (fun _ => rfl) _ _ _ fun a n => by
    cases a
    · exact ⟨2 * n, by omega, by simp⟩
    · exact ⟨2 * n + 1, by omega, by simp [Nat.add_mod]⟩

/-- A write fails and the worker dies before `join` is called: `join` returns. -/
example : (run (fun _ => true) ([.caller, .caller] ++ List.replicate 4 .worker ++ [.caller, .caller])
    (init 1 [.write "a", .join])).finished := ⟨rfl, trivial⟩

/-- C57 is false for every write that fails: there is a schedule in which the `join` after it waits forever. -/
theorem join_refuted (fails : Task σ → Bool) (obj : σ) (target : String) (hf : fails ⟨target, obj⟩ = true)
    (rest : List (Cmd σ)) : ∃ schedule : List Actor,
    let s := run fails schedule (init obj (.write target :: .join :: rest))
    s.pc = .joinWait false ∧ Hangs s ∧ ∀ schedule', run fails schedule' s = s := by
  refine ⟨List.replicate 4 .caller ++ List.replicate 4 .worker, ?_⟩
  intro s
  have hs : s = ⟨obj, rest, .joinWait false, [none], 1, .dead, [], [.called ⟨target, obj⟩, .failed ⟨target, obj⟩, .died]⟩ := by
    simp [s, run, step, callerStep, workerStep, init, startJoin, Worker.alive, hf, List.replicate]
  have hh : Hangs s := by
    rw [hs]
    exact ⟨⟨_, rfl⟩, rfl, by simp, ⟨target, obj⟩, by simp⟩
  exact ⟨by rw [hs], hh, hangs_forever hh fails⟩

/-- The hypothesis is met if the disk is full. -/
example : ∃ schedule : List Actor, Hangs (run (fun _ => true) schedule (init 0 [.write "a", .join])) :=
  let ⟨schedule, h⟩ := join_refuted (fun _ => true) 0 "a" rfl []
  ⟨schedule, h.2.1⟩

end Qtune.Writer
