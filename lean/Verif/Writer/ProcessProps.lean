import Verif.Writer.ProcessLemmas

/-! # C169: the asynchronous writer in process mode -/

namespace Qtune.Writer.Process

variable {σ : Type}

/-- **C169**, order and completeness.  For all schedules and all objects, also those that cannot be pickled: what the worker has executed since the last restart is a
beginning of the accepted calls whose objects can be pickled, in the order of the calls and with the state of the object at the time of the call.
If no write fails, the same holds for what is on disk and for the whole execution, and when `join` has returned and nothing was called since, everything is on disk. -/
theorem process_fifo (pickles fails : Task σ → Bool) (obj : σ) (cmds : List (Cmd σ)) (schedule : List Actor) :
    let s := run pickles fails schedule (init obj cmds)
    executed s.log <+: (called s.log).filter pickles ∧
      ((∀ t, fails t = false) → onDisk s.events <+: (called s.events).filter pickles ∧
        (s.events.getLast? = some .joined → onDisk s.events = called s.events)) := by
  intro s
  have hi := inv_run pickles fails obj cmds schedule
  refine ⟨⟨_, by rw [hi.sent, List.append_assoc, List.append_assoc]⟩, fun hok => ?_⟩
  have hc := calmly_run (pickles := pickles) hok obj cmds schedule
  have hpp : (called s.past).filter pickles = called s.past := List.filter_eq_self.2 hc.pickled
  constructor
  · have hde : onDisk s.log <+: (called s.log).filter pickles :=
      ⟨_, by rw [hi.sent, ← hc.ok, List.append_assoc, List.append_assoc]⟩
    simp only [State.events, onDisk_append, called_append, List.filter_append, hpp]
    rw [hc.past]
    exact (List.prefix_append_right_inj _).2 hde
  · intro hl
    simp only [State.events] at hl ⊢
    rw [onDisk_append, called_append, hc.past]
    congr 1
    by_cases h0 : s.log = []
    · rw [h0]; rfl
    · have hl' : s.log.getLast? = some .joined := by
        rw [List.getLast?_append] at hl
        cases h1 : s.log.getLast? with
        | none => exact absurd (List.getLast?_eq_none_iff.1 h1) h0
        | some e => rw [h1] at hl; exact hl
      have hg := good_recent hok hi (hc.last hl')
      have h1 : called s.log = onDisk s.log ++ s.recent.pending := hg.fifo
      rw [h1, hg.joined hl', List.append_nil]

/-- The second of three objects cannot be pickled: the others are written. -/
example : ∃ schedule,
    let s := run (fun t => t.value != 7) (fun _ => false) schedule (init 1 [.write "a", .mutate 7, .write "b", .mutate 2, .write "c", .join])
    onDisk s.events = [⟨"a", 1⟩, ⟨"c", 2⟩] ∧ called s.events = [⟨"a", 1⟩, ⟨"b", 7⟩, ⟨"c", 2⟩] :=
  ⟨List.replicate 10 .caller ++ List.replicate 4 .feeder ++ List.replicate 12 .worker, rfl, rfl⟩

/-- **C169**, if all objects can be pickled: every execution in process mode is, for all that the caller and the disk can see, an execution
in thread mode. -/
theorem process_is_thread (pickles fails : Task σ → Bool) (hall : ∀ t, pickles t = true) (obj : σ) (cmds : List (Cmd σ))
    (schedule : List Actor) :
    let s := run pickles fails schedule (init obj cmds)
    ∃ schedule', let s' := Writer.run fails schedule' (Writer.init obj cmds)
      s'.past = s.past ∧ s'.log = s.log ∧ s'.obj = s.obj ∧ s'.cmds = s.cmds ∧ s'.pc = s.pc ∧ s'.worker = s.worker := by
  intro s
  have h : Reached fails obj cmds s := by
    refine run_induction (P := Reached fails obj cmds) ⟨[], rfl⟩ (fun _ _ => reached_caller) ?_ (fun _ _ => reached_worker) schedule
    intro s s' hr h
    rcases feeder_cases h with ⟨h1, -⟩ | ⟨t, -, -, hp, -⟩
    · obtain ⟨sched, hs⟩ := hr
      exact ⟨sched, hs.trans h1.symm⟩
    · rw [hall] at hp
      cases hp
  obtain ⟨schedule', h⟩ := h
  exact ⟨schedule', by rw [h]; exact ⟨rfl, rfl, rfl, rfl, rfl, rfl⟩⟩

/-- **C169**, for a whole program: if all objects can be pickled, no write fails and the program calls `join` only in the end, then when the program has
finished, exactly the objects that it wrote are on disk, in the order of the calls and with their state at the time of the call. -/
theorem process_complete (pickles fails : Task σ → Bool) (hall : ∀ t, pickles t = true) (hok : ∀ t, fails t = false) (obj : σ)
    (cmds : List (Cmd σ)) (hj : .join ∉ cmds) (schedule : List Actor) :
    let s := run pickles fails schedule (init obj (cmds ++ [.join]))
    s.finished → onDisk s.events = writesOf obj cmds := by
  intro s hf
  obtain ⟨schedule', h1, h2, -, h4, h5, -⟩ := process_is_thread pickles fails hall obj (cmds ++ [.join]) schedule
  have h := writer_complete fails hok obj cmds hj schedule'
  have hfin : (Writer.run fails schedule' (Writer.init obj (cmds ++ [.join]))).finished := by
    refine ⟨h4.trans hf.1, ?_⟩
    rw [h5]
    exact hf.2
  have h' := h hfin
  rw [Writer.State.events, h1, h2] at h'
  exact h'

/-- `join` waits forever: for a worker that died of a failed write, or for a task that cannot be pickled and was discarded. -/
structure Hangs (pickles fails : Task σ → Bool) (s : State σ) : Prop where
  waits : ∃ r, s.pc = .joinWait r
  cause : (s.worker = .dead ∧ ∃ t, .failed t ∈ s.log) ∨ ∃ t ∈ called s.log, pickles t = false
  forever : ∀ schedule, run pickles fails schedule s = s

theorem stuck_forever {pickles fails : Task σ → Bool} {s : State σ} (h : Stuck pickles fails s) :
    ∀ schedule, run pickles fails schedule s = s := by
  intro schedule
  induction schedule with
  | nil => rfl
  | cons a as ih =>
    have : step pickles fails a s = s := by
      cases a
      · simp only [step, h.1, Option.getD_none]
      · simp only [step, h.2.1, Option.getD_none]
      · simp only [step, h.2.2, Option.getD_none]
    simp only [run, this, ih]

theorem stuck_cases {pickles fails : Task σ → Bool} {s : State σ} (hi : Inv pickles fails s) (h : Stuck pickles fails s) :
    s.finished ∨ Hangs pickles fails s := by
  have hforever := stuck_forever h
  have hb : s.buffer = [] := by
    have h1 := h.2.1
    unfold feederStep at h1
    split at h1
    · assumption
    · cases h1
    · split at h1 <;> cases h1
  by_cases hd : s.dropped = []
  · obtain ⟨obj, cmds, sched, hs⟩ := hi.same hd
    have hst : Writer.Stuck fails s.thread := ⟨thread_caller_none h.1, thread_worker_none h.2.2 hb⟩
    have h1 := Writer.stuck_cases (fine_run fails sched (Writer.init obj cmds) (.inl (good_init obj cmds)))
      (failing_run fails sched _ (failing_init fails obj cmds)) (by rw [hs]; exact stuck_recent hst)
    rw [hs] at h1
    rcases h1 with h1 | h1
    · exact .inl h1
    · exact .inr ⟨h1.waits, .inl ⟨h1.dead, h1.failed⟩, hforever⟩
  · obtain ⟨hc, -, -⟩ := h
    have hwaits := hi.waits
    have hlost : ∃ t ∈ called s.log, pickles t = false := by
      obtain ⟨t, l, hl⟩ := List.exists_cons_of_ne_nil hd
      have : t ∈ (called s.log).filter fun t => !pickles t := by rw [hi.lost, hl]; simp
      obtain ⟨h1, h2⟩ := List.mem_filter.1 this
      exact ⟨t, h1, by simpa using h2⟩
    have hun : s.unfinished ≠ 0 := by
      rw [hi.unfinished]
      have := List.length_pos_iff.2 hd
      omega
    unfold callerStep at hc
    split at hc <;> rename_i hpc
    · split at hc <;> rename_i hcm
      · exact .inl ⟨hcm, by rw [hpc]; trivial⟩
      · cases hc
      · split at hc <;> cases hc
      · cases hc
      · cases hc
    · cases hc
    · cases hc
    · exact .inr ⟨⟨_, hpc⟩, .inr hlost, hforever⟩
    · rcases hwaits _ hpc with h1 | h1
      · rw [h1] at hc
        simp only [Worker.alive, Bool.false_eq_true, if_false] at hc
        split at hc <;> cases hc
      · exact absurd h1 hun

/-- **C169**, in every fair schedule (all actors get infinitely many turns): the program finishes, so that every call of `join` returns, or it comes to a `join` that waits
forever, for a worker that died of a failed write or for an object that cannot be pickled. -/
theorem process_join_partial (pickles fails : Task σ → Bool) (obj : σ) (cmds : List (Cmd σ)) (schedule : Nat → Actor)
    (hfair : ∀ a n, ∃ m, n ≤ m ∧ schedule m = a) :
    (∃ n, (run pickles fails ((List.range n).map schedule) (init obj cmds)).finished) ∨
      ∃ n, Hangs pickles fails (run pickles fails ((List.range n).map schedule) (init obj cmds)) := by
  obtain ⟨n, hn⟩ := fair_stuck pickles fails obj cmds schedule hfair
  exact (stuck_cases (inv_run pickles fails obj cmds _) hn).imp (fun h => ⟨n, h⟩) fun h => ⟨n, h⟩

/-- **C169**: if all objects can be pickled and no write fails, every program finishes in every fair schedule. -/
theorem process_join_without_failures (pickles fails : Task σ → Bool) (hall : ∀ t, pickles t = true) (hok : ∀ t, fails t = false) (obj : σ)
    (cmds : List (Cmd σ)) (schedule : Nat → Actor) (hfair : ∀ a n, ∃ m, n ≤ m ∧ schedule m = a) :
    ∃ n, (run pickles fails ((List.range n).map schedule) (init obj cmds)).finished := by
  refine (process_join_partial pickles fails obj cmds schedule hfair).resolve_right fun ⟨n, hn⟩ => ?_
  rcases hn.cause with ⟨-, t, ht⟩ | ⟨t, -, ht⟩
  · have hc := (calmly_run (pickles := pickles) hok obj cmds ((List.range n).map schedule)).ok
    obtain ⟨l, l', hl⟩ := List.append_of_mem ht
    rw [hl, executed_append, onDisk_append] at hc
    have hle : ∀ l : List (Event σ), (onDisk l).length ≤ (executed l).length := by
      intro l
      induction l with
      | nil => exact le_refl _
      | cons e l ih => cases e <;> simp [onDisk, executed] at ih ⊢ <;> omega
    have h1 := congrArg List.length hc
    have h2 := hle l
    have h3 := hle l'
    simp only [List.length_append] at h1
    have h4 : (executed (Event.failed t :: l')).length = (executed l').length + 1 := by simp [executed]
    have h5 : (onDisk (Event.failed t :: l')).length = (onDisk l').length := by simp [onDisk]
    omega
  · rw [hall] at ht
    cases ht

/-- The turns of the actors one after the other are a fair schedule. -/
example : ∃ n, (run (fun _ => true) (fun _ => false)
    ((List.range n).map fun i => if i % 3 = 0 then Actor.caller else if i % 3 = 1 then .feeder else .worker)
    (init 1 [.write "a", .join])).finished :=
  process_join_without_failures _ _ (fun _ => rfl) (fun _ => rfl) _ _ _ fun a n => by
    cases a
    · exact ⟨3 * n, by omega, by simp⟩
    · exact ⟨3 * n + 1, by omega, by simp [Nat.add_mod]⟩
    · exact ⟨3 * n + 2, by omega, by simp [Nat.add_mod]⟩

/-- **C169** is false for every object that cannot be pickled, in every schedule: if no write fails, and a call of `write` was accepted for such an object, neither `join` nor
`restart` ever returns afterwards. -/
theorem process_join_refuted (pickles fails : Task σ → Bool) (hok : ∀ t, fails t = false) (obj : σ) (cmds : List (Cmd σ))
    (schedule : List Actor) (t : Task σ) (ht : pickles t = false) :
    let s := run pickles fails schedule (init obj cmds)
    t ∈ called s.log → ∀ later, let s' := run pickles fails later s
      s'.past = s.past ∧ ∃ more, s'.log = s.log ++ more ∧ .joined ∉ more := by
  intro s hm later
  suffices h : Calmly pickles fails (run pickles fails later s) ∧ (run pickles fails later s).past = s.past ∧
      ∃ more, (run pickles fails later s).log = s.log ++ more ∧ .joined ∉ more from h.2
  refine run_induction (P := fun s' => Calmly pickles fails s' ∧ s'.past = s.past ∧ ∃ more, s'.log = s.log ++ more ∧ Event.joined ∉ more)
    ⟨calmly_run hok obj cmds schedule, rfl, [], (List.append_nil _).symm, by simp⟩ ?_ ?_ ?_ later
  · rintro s₁ s₂ ⟨hc, hp, more, hl, hj⟩ h
    refine ⟨calmly_caller hok hc h, ?_⟩
    have hin : t ∈ called s₁.log := by rw [hl, called_append]; exact List.mem_append_left _ hm
    have hno : ∀ r, s₁.pc = .joinThread r → s₁.worker.alive = true := by
      intro r hr
      by_contra ha
      have := (all_on_disk hok hc.inv hc.waiting hr (by simpa using ha)).2.2 t hin
      rw [ht] at this
      cases this
    have hsnoc : ∀ e : Event σ, e ≠ .joined → ∃ more', s₁.log ++ [e] = s.log ++ more' ∧ Event.joined ∉ more' := by
      intro e he
      refine ⟨more ++ [e], by rw [hl, List.append_assoc], ?_⟩
      simp only [List.mem_append, List.mem_singleton, not_or]
      exact ⟨hj, fun h => he h.symm⟩
    unfold callerStep at h
    split at h <;> rename_i hpc
    · split at h
      · cases h
      · cases h; exact ⟨hp, more, hl, hj⟩
      · split at h <;> cases h
        · exact ⟨hp, hsnoc _ (by simp)⟩
        · exact ⟨hp, hsnoc _ (by simp)⟩
      · cases h; exact ⟨hp, more, hl, hj⟩
      · cases h; exact ⟨hp, more, hl, hj⟩
    · cases h; exact ⟨hp, more, hl, hj⟩
    · cases h; exact ⟨hp, more, hl, hj⟩
    · split at h <;> cases h
      exact ⟨hp, more, hl, hj⟩
    · rw [if_pos (hno _ hpc)] at h
      cases h
  · rintro s₁ s₂ ⟨hc, hp, more, hl, hj⟩ h
    refine ⟨calmly_feeder hok hc h, ?_⟩
    rcases feeder_cases h with ⟨h1, -⟩ | ⟨t, rest, -, -, rfl⟩
    · have h2 : s₂.past = s₁.past := congrArg Writer.State.past h1
      have h3 : s₂.log = s₁.log := congrArg Writer.State.log h1
      exact ⟨h2.trans hp, more, h3.trans hl, hj⟩
    · exact ⟨hp, more, hl, hj⟩
  · rintro s₁ s₂ ⟨hc, hp, more, hl, hj⟩ h
    refine ⟨calmly_worker hok hc h, ?_⟩
    have hsnoc : ∀ e : Event σ, e ≠ .joined → ∃ more', s₁.log ++ [e] = s.log ++ more' ∧ Event.joined ∉ more' := by
      intro e he
      refine ⟨more ++ [e], by rw [hl, List.append_assoc], ?_⟩
      simp only [List.mem_append, List.mem_singleton, not_or]
      exact ⟨hj, fun h => he h.symm⟩
    unfold workerStep at h
    split at h
    · split at h
      · cases h
      · cases h; exact ⟨hp, more, hl, hj⟩
    · cases h; exact ⟨hp, more, hl, hj⟩
    · split at h <;> cases h
      · exact ⟨hp, hsnoc _ (by simp)⟩
      · exact ⟨hp, hsnoc _ (by simp)⟩
    · cases h; exact ⟨hp, more, hl, hj⟩
    · cases h; exact ⟨hp, hsnoc _ (by simp)⟩
    · cases h

/-- The hypotheses are met, and then `join` is called: it waits. -/
example : ∃ schedule,
    let s := run (fun t => t.value != 7) (fun _ => false) schedule (init 7 [.write "a", .join])
    (⟨"a", 7⟩ : Task Nat) ∈ called s.log ∧ s.pc = .joinWait false ∧ s.worker = .exiting :=
  ⟨List.replicate 4 .caller ++ List.replicate 2 .feeder ++ List.replicate 3 .worker, by simp [run, step, callerStep, feederStep, workerStep,
    init, startJoin, Worker.alive, called, List.replicate]⟩

end Qtune.Writer.Process
