import Verif.Writer.ProcessModel

/-! # Invariants of the writer in process mode -/

namespace Qtune.Writer.Process

variable {σ : Type}

/-- What the same writer would look like in thread mode. -/
def State.thread (s : State σ) : Writer.State σ :=
  ⟨s.obj, s.cmds, s.pc, s.pipe ++ s.buffer, s.unfinished, s.worker, s.past, s.log⟩

theorem thread_caller {s s' : State σ} (h : callerStep s = some s') : Writer.callerStep s.thread = some s'.thread := by
  obtain ⟨obj, cmds, pc, buffer, pipe, dropped, unf, worker, past, log⟩ := s
  simp only [callerStep] at h
  cases pc with
  | ready =>
    cases cmds with
    | nil => cases h
    | cons c cmds =>
      cases c with
      | mutate v => cases h; rfl
      | write target =>
        simp only at h
        by_cases ha : worker.alive = true
        · rw [if_pos ha] at h
          cases h
          simp [State.thread, Writer.callerStep, ha]
        · rw [if_neg ha] at h
          cases h
          simp [State.thread, Writer.callerStep, ha]
      | join => cases h; rfl
      | restart => cases h; rfl
  | put t => cases h; simp [State.thread, Writer.callerStep]
  | joinPut r => cases h; simp [State.thread, Writer.callerStep]
  | joinWait r =>
    simp only at h
    split at h <;> rename_i h0
    · cases h
      simp [State.thread, Writer.callerStep, h0]
    · cases h
  | joinThread r =>
    simp only at h
    split at h <;> rename_i ha
    · cases h
    · cases r
      · simp only [Bool.false_eq_true, if_false] at h
        cases h
        simp [State.thread, Writer.callerStep, ha]
      · simp only [if_true] at h
        cases h
        simp [State.thread, Writer.callerStep, ha]

theorem thread_caller_none {s : State σ} (h : callerStep s = none) : Writer.callerStep s.thread = none := by
  obtain ⟨obj, cmds, pc, buffer, pipe, dropped, unf, worker, past, log⟩ := s
  simp only [callerStep] at h
  cases pc with
  | ready =>
    cases cmds with
    | nil => rfl
    | cons c cmds =>
      cases c with
      | write target => simp only at h; split at h <;> cases h
      | _ => cases h
  | put t => cases h
  | joinPut r => cases h
  | joinWait r =>
    simp only at h
    split at h <;> rename_i h0
    · cases h
    · simp [State.thread, Writer.callerStep, h0]
  | joinThread r =>
    simp only at h
    split at h <;> rename_i ha
    · simp [State.thread, Writer.callerStep, ha]
    · split at h <;> cases h

theorem thread_worker {fails : Task σ → Bool} {s s' : State σ} (h : workerStep fails s = some s') :
    Writer.workerStep fails s.thread = some s'.thread := by
  obtain ⟨obj, cmds, pc, buffer, pipe, dropped, unf, worker, past, log⟩ := s
  simp only [workerStep] at h
  cases worker with
  | idle =>
    simp only at h
    cases pipe with
    | nil => cases h
    | cons t pipe => cases h; rfl
  | got t =>
    cases t with
    | none => cases h; rfl
    | some t =>
      simp only at h
      split at h <;> rename_i hf <;> cases h <;> simp [State.thread, Writer.workerStep, hf]
  | finishing stop => cases h; rfl
  | exiting => cases h; rfl
  | dead => cases h

theorem thread_worker_none {fails : Task σ → Bool} {s : State σ} (h : workerStep fails s = none) (hb : s.buffer = []) :
    Writer.workerStep fails s.thread = none := by
  obtain ⟨obj, cmds, pc, buffer, pipe, dropped, unf, worker, past, log⟩ := s
  simp only at hb
  subst hb
  simp only [workerStep] at h
  cases worker with
  | idle =>
    simp only at h
    cases pipe with
    | nil => rfl
    | cons t pipe => cases h
  | got t =>
    cases t with
    | none => cases h
    | some t => simp only at h; split at h <;> cases h
  | finishing stop => cases h
  | exiting => cases h
  | dead => rfl

theorem feeder_cases {pickles : Task σ → Bool} {s s' : State σ} (h : feederStep pickles s = some s') :
    (s'.thread = s.thread ∧ s'.dropped = s.dropped ∧ s'.buffer.length < s.buffer.length ∧ s'.pipe.length = s.pipe.length + 1) ∨
    (∃ t rest, s.buffer = some t :: rest ∧ pickles t = false ∧ s' = { s with buffer := rest, dropped := s.dropped ++ [t] }) := by
  obtain ⟨obj, cmds, pc, buffer, pipe, dropped, unf, worker, past, log⟩ := s
  simp only [feederStep] at h
  cases buffer with
  | nil => cases h
  | cons t buffer =>
    cases t with
    | none =>
      cases h
      exact .inl ⟨by simp [State.thread], rfl, by simp, by simp⟩
    | some t =>
      simp only at h
      split at h <;> rename_i hp <;> cases h
      · exact .inl ⟨by simp [State.thread], rfl, by simp, by simp⟩
      · exact .inr ⟨t, buffer, rfl, by simpa using hp, rfl⟩

theorem run_append (pickles fails : Task σ → Bool) : ∀ (as bs : List Actor) (s : State σ),
    run pickles fails (as ++ bs) s = run pickles fails bs (run pickles fails as s)
  | [], _, _ => rfl
  | a :: as, bs, s => run_append pickles fails as bs (step pickles fails a s)

theorem writer_run_append (fails : Task σ → Bool) : ∀ (as bs : List Writer.Actor) (s : Writer.State σ),
    Writer.run fails (as ++ bs) s = Writer.run fails bs (Writer.run fails as s)
  | [], _, _ => rfl
  | a :: as, bs, s => writer_run_append fails as bs (Writer.step fails a s)

/-- Induction over schedules: the last step. -/
theorem run_induction {pickles fails : Task σ → Bool} {s₀ : State σ} {P : State σ → Prop} (h0 : P s₀)
    (hc : ∀ s s', P s → callerStep s = some s' → P s') (hf : ∀ s s', P s → feederStep pickles s = some s' → P s')
    (hw : ∀ s s', P s → workerStep fails s = some s' → P s') (as : List Actor) : P (run pickles fails as s₀) := by
  induction as generalizing s₀ with
  | nil => exact h0
  | cons a as ih =>
    refine ih ?_
    cases a with
    | caller =>
      simp only [step]
      cases h' : callerStep s₀ with
      | none => exact h0
      | some s' => exact hc _ _ h0 h'
    | feeder =>
      simp only [step]
      cases h' : feederStep pickles s₀ with
      | none => exact h0
      | some s' => exact hf _ _ h0 h'
    | worker =>
      simp only [step]
      cases h' : workerStep fails s₀ with
      | none => exact h0
      | some s' => exact hw _ _ h0 h'

/-- The state in thread mode is reachable there. -/
def Reached (fails : Task σ → Bool) (obj : σ) (cmds : List (Cmd σ)) (s : State σ) : Prop :=
  ∃ schedule, Writer.run fails schedule (Writer.init obj cmds) = s.thread

theorem reached_caller {fails : Task σ → Bool} {obj : σ} {cmds : List (Cmd σ)} {s s' : State σ} (h : Reached fails obj cmds s)
    (h' : callerStep s = some s') : Reached fails obj cmds s' := by
  obtain ⟨sched, hs⟩ := h
  refine ⟨sched ++ [.caller], ?_⟩
  rw [writer_run_append, hs]
  simp [Writer.run, Writer.step, thread_caller h']

theorem reached_worker {fails : Task σ → Bool} {obj : σ} {cmds : List (Cmd σ)} {s s' : State σ} (h : Reached fails obj cmds s)
    (h' : workerStep fails s = some s') : Reached fails obj cmds s' := by
  obtain ⟨sched, hs⟩ := h
  refine ⟨sched ++ [.worker], ?_⟩
  rw [writer_run_append, hs]
  simp [Writer.run, Writer.step, thread_worker h']

/-- Without the events before the last restart. -/
def State.recent (s : State σ) : Writer.State σ := s.thread.recent

/-- Since the last restart, thread mode could have come to the same state. -/
def Recent (fails : Task σ → Bool) (s : State σ) : Prop :=
  ∃ obj cmds schedule, Writer.run fails schedule (Writer.init obj cmds) = s.recent

theorem recent_callerStep {s s' : Writer.State σ} (h : Writer.callerStep s = some s') :
    Writer.callerStep s.recent = some s'.recent ∨ s'.recent = Writer.init s'.obj s'.cmds := by
  obtain ⟨obj, cmds, pc, queue, unf, worker, past, log⟩ := s
  simp only [Writer.callerStep] at h
  cases pc with
  | ready =>
    cases cmds with
    | nil => cases h
    | cons c cmds =>
      cases c with
      | write target =>
        simp only at h
        split at h <;> rename_i ha <;> cases h <;> left <;> simp [Writer.callerStep, Writer.State.recent, ha]
      | _ => cases h; exact .inl rfl
  | put t => cases h; exact .inl rfl
  | joinPut r => cases h; exact .inl rfl
  | joinWait r =>
    simp only at h
    split at h <;> rename_i h0
    · cases h
      left
      simp [Writer.callerStep, Writer.State.recent, h0]
    · cases h
  | joinThread r =>
    simp only at h
    split at h <;> rename_i ha
    · cases h
    · cases r
      · simp only [Bool.false_eq_true, if_false] at h
        cases h
        left
        simp [Writer.callerStep, Writer.State.recent, ha]
      · simp only [if_true] at h
        cases h
        exact .inr rfl

theorem recent_workerStep {fails : Task σ → Bool} {s s' : Writer.State σ} (h : Writer.workerStep fails s = some s') :
    Writer.workerStep fails s.recent = some s'.recent := by
  obtain ⟨obj, cmds, pc, queue, unf, worker, past, log⟩ := s
  simp only [Writer.workerStep] at h
  cases worker with
  | idle =>
    simp only at h
    cases queue with
    | nil => cases h
    | cons t pipe => cases h; rfl
  | got t =>
    cases t with
    | none => cases h; rfl
    | some t =>
      simp only at h
      split at h <;> rename_i hf <;> cases h <;> simp [Writer.State.recent, Writer.workerStep, hf]
  | finishing stop => cases h; rfl
  | exiting => cases h; rfl
  | dead => cases h

theorem recent_caller {fails : Task σ → Bool} {s s' : State σ} (h : Recent fails s) (h' : callerStep s = some s') : Recent fails s' := by
  obtain ⟨obj, cmds, sched, hs⟩ := h
  rcases recent_callerStep (thread_caller h') with h1 | h1
  · refine ⟨obj, cmds, sched ++ [.caller], ?_⟩
    rw [writer_run_append, hs]
    simp only [State.recent, Writer.run, Writer.step, h1, Option.getD_some]
  · exact ⟨_, _, [], h1.symm⟩

theorem recent_worker {fails : Task σ → Bool} {s s' : State σ} (h : Recent fails s) (h' : workerStep fails s = some s') : Recent fails s' := by
  obtain ⟨obj, cmds, sched, hs⟩ := h
  refine ⟨obj, cmds, sched ++ [.worker], ?_⟩
  rw [writer_run_append, hs]
  simp only [State.recent, Writer.run, Writer.step, recent_workerStep (thread_worker h'), Option.getD_some]

/-- The task that the worker is about to write. -/
def State.got (s : State σ) : List (Task σ) := match s.worker with | .got (some t) => [t] | _ => []

/-- The tasks that were accepted and not pickled yet. -/
def State.early (s : State σ) : List (Task σ) := s.buffer.filterMap id ++ (match s.pc with | .put t => [t] | _ => [])

/-- The invariant of all executions. -/
structure Inv (pickles fails : Task σ → Bool) (s : State σ) : Prop where
  sent : (called s.log).filter pickles = executed s.log ++ s.got ++ s.pipe.filterMap id ++ s.early.filter pickles
  lost : (called s.log).filter (fun t => !pickles t) = s.dropped ++ s.early.filter fun t => !pickles t
  unfinished : s.unfinished = s.buffer.length + s.pipe.length + s.worker.holds + s.dropped.length
  /-- `join` waits for all tasks unless it found the worker dead -/
  waits : ∀ r, s.pc = .joinThread r → s.worker = .dead ∨ s.unfinished = 0
  /-- as long as nothing was discarded, thread mode could have come to the same state -/
  same : s.dropped = [] → Recent fails s

theorem inv_init (pickles fails : Task σ → Bool) (obj : σ) (cmds : List (Cmd σ)) : Inv pickles fails (init obj cmds) :=
  ⟨rfl, rfl, rfl, (fun r h => by cases h), fun _ => ⟨obj, cmds, [], rfl⟩⟩

theorem inv_caller {pickles fails : Task σ → Bool} {s s' : State σ} (hi : Inv pickles fails s) (h : callerStep s = some s') :
    Inv pickles fails s' := by
  have hrec : s.dropped = [] → Recent fails s' := fun hd => recent_caller (hi.same hd) h
  obtain ⟨obj, cmds, pc, buffer, pipe, dropped, unf, worker, past, log⟩ := s
  obtain ⟨hs, hl, hu, hw, -⟩ := hi
  simp only [State.got, State.early] at hs hl hu hw hrec
  simp only [callerStep] at h
  cases pc with
  | ready =>
    cases cmds with
    | nil => cases h
    | cons c cmds =>
      cases c with
      | mutate v => cases h; exact ⟨hs, hl, hu, hw, hrec⟩
      | write target =>
        simp only at h
        by_cases ha : worker.alive = true
        · rw [if_pos ha] at h
          cases h
          refine ⟨?_, ?_, hu, (fun r hr => by cases hr), hrec⟩
          · simp only [State.got, State.early, called_append, executed_append, List.filter_append] at hs ⊢
            rw [hs]
            simp [called, executed]
          · simp only [State.early, called_append, List.filter_append] at hl ⊢
            rw [hl]
            simp [called]
        · rw [if_neg ha] at h
          cases h
          refine ⟨?_, ?_, hu, (fun r hr => by cases hr), hrec⟩
          · simp only [State.got, State.early, called_append, executed_append, List.filter_append] at hs ⊢
            rw [hs]
            simp [called, executed]
          · simp only [State.early, called_append, List.filter_append] at hl ⊢
            rw [hl]
            simp [called]
      | join =>
        cases h
        refine ⟨?_, ?_, hu, fun r hr => ?_, hrec⟩
        · by_cases ha : worker.alive = true <;> simpa [State.got, State.early, startJoin, ha] using hs
        · by_cases ha : worker.alive = true <;> simpa [State.early, startJoin, ha] using hl
        · cases worker <;> simp [startJoin, Worker.alive] at hr ⊢
      | restart =>
        cases h
        refine ⟨?_, ?_, hu, fun r hr => ?_, hrec⟩
        · by_cases ha : worker.alive = true <;> simpa [State.got, State.early, startJoin, ha] using hs
        · by_cases ha : worker.alive = true <;> simpa [State.early, startJoin, ha] using hl
        · cases worker <;> simp [startJoin, Worker.alive] at hr ⊢
  | put t =>
    cases h
    refine ⟨?_, ?_, ?_, (fun r hr => by cases hr), hrec⟩
    · simpa [State.got, State.early, List.filterMap_append] using hs
    · simpa [State.early, List.filterMap_append] using hl
    · simp only [List.length_append, List.length_singleton]
      omega
  | joinPut r =>
    cases h
    refine ⟨?_, ?_, ?_, (fun r hr => by cases hr), hrec⟩
    · simpa [State.got, State.early, List.filterMap_append] using hs
    · simpa [State.early, List.filterMap_append] using hl
    · simp only [List.length_append, List.length_singleton]
      omega
  | joinWait r =>
    simp only at h
    split at h <;> rename_i h0
    · cases h
      exact ⟨hs, hl, hu, fun _ _ => .inr h0, hrec⟩
    · cases h
  | joinThread r =>
    simp only at h
    split at h <;> rename_i ha
    · cases h
    · cases r
      · simp only [Bool.false_eq_true, if_false] at h
        cases h
        refine ⟨?_, ?_, hu, (fun r hr => by cases hr), hrec⟩
        · simp only [State.got, State.early, called_append, executed_append, List.filter_append] at hs ⊢
          rw [hs]
          simp [called, executed]
        · simp only [State.early, called_append, List.filter_append] at hl ⊢
          rw [hl]
          simp [called]
      · simp only [if_true] at h
        cases h
        exact ⟨rfl, rfl, rfl, (fun r hr => by cases hr), fun _ => ⟨obj, cmds, [], rfl⟩⟩

theorem inv_worker {pickles fails : Task σ → Bool} {s s' : State σ} (hi : Inv pickles fails s) (h : workerStep fails s = some s') :
    Inv pickles fails s' := by
  have hrec : s.dropped = [] → Recent fails s' := fun hd => recent_worker (hi.same hd) h
  obtain ⟨obj, cmds, pc, buffer, pipe, dropped, unf, worker, past, log⟩ := s
  obtain ⟨hs, hl, hu, hw, -⟩ := hi
  simp only [State.got, State.early] at hs hl hu hw hrec
  simp only [workerStep] at h
  cases worker with
  | idle =>
    simp only at h
    cases pipe with
    | nil => cases h
    | cons t pipe =>
      cases h
      refine ⟨?_, hl, ?_, fun r hr => ?_, hrec⟩
      · cases t <;> simpa [State.got, State.early] using hs
      · simp only [Worker.holds, List.length_cons] at hu ⊢
        omega
      · rcases hw r hr with h1 | h1
        · cases h1
        · simp only [List.length_cons] at hu
          omega
  | got t =>
    cases t with
    | none =>
      cases h
      exact ⟨hs, hl, hu, fun r hr => .inr ((hw r hr).resolve_left (by simp)), hrec⟩
    | some t =>
      simp only at h
      split at h <;> cases h
      · refine ⟨?_, ?_, hu, fun r hr => .inr ((hw r hr).resolve_left (by simp)), hrec⟩
        · simp only [State.got, State.early, called_append, executed_append, List.filter_append] at hs ⊢
          rw [hs]
          simp [called, executed]
        · simp only [State.early, called_append, List.filter_append] at hl ⊢
          rw [hl]
          simp [called]
      · refine ⟨?_, ?_, hu, fun r hr => .inr ((hw r hr).resolve_left (by simp)), hrec⟩
        · simp only [State.got, State.early, called_append, executed_append, List.filter_append] at hs ⊢
          rw [hs]
          simp [called, executed]
        · simp only [State.early, called_append, List.filter_append] at hl ⊢
          rw [hl]
          simp [called]
  | finishing stop =>
    cases h
    refine ⟨?_, hl, ?_, fun r hr => .inr ?_, hrec⟩
    · cases stop <;> simpa [State.got, State.early] using hs
    · simp only [Worker.holds] at hu ⊢
      cases stop <;> simp only [if_true, Bool.false_eq_true, if_false] <;> omega
    · have := (hw r hr).resolve_left (by simp)
      simp [this]
  | exiting =>
    cases h
    refine ⟨?_, ?_, hu, fun _ _ => .inl rfl, hrec⟩
    · simp only [State.got, State.early, called_append, executed_append, List.filter_append] at hs ⊢
      rw [hs]
      simp [called, executed]
    · simp only [State.early, called_append, List.filter_append] at hl ⊢
      rw [hl]
      simp [called]
  | dead => cases h

theorem inv_feeder {pickles fails : Task σ → Bool} {s s' : State σ} (hi : Inv pickles fails s) (h : feederStep pickles s = some s') :
    Inv pickles fails s' := by
  obtain ⟨obj, cmds, pc, buffer, pipe, dropped, unf, worker, past, log⟩ := s
  obtain ⟨hs, hl, hu, hw, hrec⟩ := hi
  simp only [State.got, State.early] at hs hl hu hw hrec
  simp only [feederStep] at h
  cases buffer with
  | nil => cases h
  | cons t buffer =>
    cases t with
    | none =>
      cases h
      refine ⟨?_, ?_, ?_, hw, fun hd => ?_⟩
      · simpa [State.got, State.early] using hs
      · simpa [State.early] using hl
      · simp only [List.length_append, List.length_cons, List.length_nil] at hu ⊢
        omega
      · simpa [Recent, State.recent, State.thread] using hrec hd
    | some t =>
      simp only at h
      split at h <;> rename_i hp <;> cases h
      · refine ⟨?_, ?_, ?_, hw, fun hd => ?_⟩
        · simpa [State.got, State.early, hp] using hs
        · simpa [State.early, hp] using hl
        · simp only [List.length_append, List.length_cons, List.length_nil] at hu ⊢
          omega
        · simpa [Recent, State.recent, State.thread] using hrec hd
      · refine ⟨?_, ?_, ?_, hw, fun hd => by simp at hd⟩
        · simpa [State.got, State.early, hp] using hs
        · simpa [State.early, hp] using hl
        · simp only [List.length_append, List.length_cons, List.length_nil] at hu ⊢
          omega


theorem inv_run (pickles fails : Task σ → Bool) (obj : σ) (cmds : List (Cmd σ)) (schedule : List Actor) :
    Inv pickles fails (run pickles fails schedule (init obj cmds)) :=
  run_induction (inv_init pickles fails obj cmds) (fun _ _ => inv_caller) (fun _ _ => inv_feeder) (fun _ _ => inv_worker) schedule

/-- The worker has not come to the end mark. -/
def Calm : Worker σ → Prop
  | .idle | .got (some _) | .finishing false => True
  | _ => False

/-- Without failing writes: once a task was discarded, `join` does not come to its end. -/
def Waiting (s : State σ) : Prop :=
  s.dropped ≠ [] → (∃ r, s.pc = .joinWait r) ∨
    ((∀ r, s.pc ≠ .joinThread r) ∧ none ∉ s.pipe ∧ none ∉ s.buffer ∧ Calm s.worker)

theorem good_recent {pickles fails : Task σ → Bool} (hok : ∀ t, fails t = false) {s : State σ} (hi : Inv pickles fails s)
    (hd : s.dropped = []) : Good s.recent := by
  obtain ⟨obj, cmds, sched, h⟩ := hi.same hd
  rw [← h]
  exact good_run hok sched _ (good_init obj cmds)

theorem calm_alive {w : Worker σ} (h : Calm w) : w.alive = true := by
  cases w with
  | dead => exact h.elim
  | _ => rfl

theorem waiting_caller {pickles fails : Task σ → Bool} {s s' : State σ} (hi : Inv pickles fails s) (hw : Waiting s)
    (h : callerStep s = some s') : Waiting s' := by
  obtain ⟨obj, cmds, pc, buffer, pipe, dropped, unf, worker, past, log⟩ := s
  have hu := hi.unfinished
  simp only [Waiting] at hw hu
  simp only [callerStep] at h
  cases pc with
  | ready =>
    have hw' : dropped ≠ [] → none ∉ pipe ∧ none ∉ buffer ∧ Calm worker := fun hd =>
      ((hw hd).resolve_left (by simp)).2
    cases cmds with
    | nil => cases h
    | cons c cmds =>
      cases c with
      | mutate v => cases h; exact fun hd => .inr ⟨by simp, hw' hd⟩
      | write target =>
        simp only at h
        split at h <;> cases h <;> exact fun hd => .inr ⟨by simp, hw' hd⟩
      | join =>
        cases h
        intro hd
        refine .inr ⟨fun r => ?_, hw' hd⟩
        simp [startJoin, calm_alive (hw' hd).2.2]
      | restart =>
        cases h
        intro hd
        refine .inr ⟨fun r => ?_, hw' hd⟩
        simp [startJoin, calm_alive (hw' hd).2.2]
  | put t =>
    cases h
    intro hd
    obtain ⟨-, h1, h2, h3⟩ := (hw hd).resolve_left (by simp)
    exact .inr ⟨by simp, h1, by simpa using h2, h3⟩
  | joinPut r => cases h; exact fun _ => .inl ⟨r, rfl⟩
  | joinWait r =>
    simp only at h
    split at h <;> rename_i h0
    · cases h
      intro hd
      have : dropped.length = 0 := by omega
      exact absurd (List.length_eq_zero_iff.1 this) hd
    · cases h
  | joinThread r =>
    by_cases hd : dropped = []
    · subst hd
      simp only at h
      split at h
      · cases h
      · split at h <;> cases h <;> exact fun hd => absurd rfl hd
    · rcases hw hd with ⟨r', hr⟩ | ⟨hr, -⟩
      · cases hr
      · exact absurd rfl (hr r)

theorem waiting_worker {fails : Task σ → Bool} (hok : ∀ t, fails t = false) {s s' : State σ} (hw : Waiting s)
    (h : workerStep fails s = some s') : Waiting s' := by
  obtain ⟨obj, cmds, pc, buffer, pipe, dropped, unf, worker, past, log⟩ := s
  simp only [Waiting] at hw
  simp only [workerStep] at h
  cases worker with
  | idle =>
    simp only at h
    cases pipe with
    | nil => cases h
    | cons t pipe =>
      cases h
      intro hd
      refine (hw hd).imp id fun ⟨h1, h2, h3, _⟩ => ⟨h1, fun hm => h2 (List.mem_cons_of_mem _ hm), h3, ?_⟩
      cases t with
      | none => exact absurd List.mem_cons_self h2
      | some t => exact trivial
  | got t =>
    cases t with
    | none => cases h; exact fun hd => (hw hd).imp id fun ⟨_, _, _, h⟩ => h.elim
    | some t =>
      simp only [hok, Bool.false_eq_true, if_false] at h
      cases h
      exact fun hd => (hw hd).imp id fun ⟨h1, h2, h3, _⟩ => ⟨h1, h2, h3, trivial⟩
  | finishing stop =>
    cases h
    cases stop
    · exact fun hd => (hw hd).imp id fun ⟨h1, h2, h3, _⟩ => ⟨h1, h2, h3, trivial⟩
    · exact fun hd => (hw hd).imp id fun ⟨_, _, _, h⟩ => h.elim
  | exiting => cases h; exact fun hd => (hw hd).imp id fun ⟨_, _, _, h⟩ => h.elim
  | dead => cases h

theorem phase_calm {pc : Pc σ} {queue : List (Option (Task σ))} {w : Worker σ} (h : Phase pc queue w) (hq : queue ≠ []) :
    (∃ r, pc = .joinWait r) ∨ ((∀ r, pc ≠ .joinThread r) ∧ none ∉ queue ∧ Calm w) := by
  have key : Phase pc queue .idle → (∃ r, pc = .joinWait r) ∨ ((∀ r, pc ≠ .joinThread r) ∧ none ∉ queue) := by
    clear h
    intro h
    cases pc with
    | joinThread r => exact h.elim
    | joinWait r => exact .inl ⟨r, rfl⟩
    | ready => exact .inr ⟨by simp, fun hm => h _ hm rfl⟩
    | put t => exact .inr ⟨by simp, fun hm => h _ hm rfl⟩
    | joinPut r => exact .inr ⟨by simp, fun hm => h _ hm rfl⟩
  cases w with
  | idle => exact (key h).imp id fun ⟨a, b⟩ => ⟨a, b, trivial⟩
  | got t =>
    cases t with
    | none => exact absurd h.1 hq
    | some t => exact (key h).imp id fun ⟨a, b⟩ => ⟨a, b, trivial⟩
  | finishing stop =>
    cases stop
    · exact (key h).imp id fun ⟨a, b⟩ => ⟨a, b, trivial⟩
    · exact absurd h.1 hq
  | exiting => exact absurd h.1 hq
  | dead => exact absurd h.1 hq

theorem waiting_feeder {pickles fails : Task σ → Bool} (hok : ∀ t, fails t = false) {s s' : State σ} (hi : Inv pickles fails s)
    (hw : Waiting s) (h : feederStep pickles s = some s') : Waiting s' := by
  have hg := fun hd => (good_recent hok hi hd).phase
  obtain ⟨obj, cmds, pc, buffer, pipe, dropped, unf, worker, past, log⟩ := s
  simp only [Waiting] at hw
  simp only [feederStep] at h
  cases buffer with
  | nil => cases h
  | cons t buffer =>
    cases t with
    | none =>
      cases h
      exact fun hd => (hw hd).imp id fun ⟨_, _, h3, _⟩ => absurd List.mem_cons_self h3
    | some t =>
      simp only at h
      split at h <;> cases h
      · exact fun hd => (hw hd).imp id fun ⟨h1, h2, h3, h4⟩ => ⟨h1, by simpa using h2, fun hm => h3 (List.mem_cons_of_mem _ hm), h4⟩
      · intro _
        by_cases hd : dropped = []
        · have h1 : Phase pc (pipe ++ some t :: buffer) worker := hg hd
          refine (phase_calm h1 (by simp)).imp id fun ⟨h2, h3, h4⟩ => ⟨h2, ?_, ?_, h4⟩
          · exact fun hm => h3 (List.mem_append_left _ hm)
          · exact fun hm => h3 (List.mem_append_right _ (List.mem_cons_of_mem _ hm))
        · exact (hw hd).imp id fun ⟨h1, h2, h3, h4⟩ => ⟨h1, h2, fun hm => h3 (List.mem_cons_of_mem _ hm), h4⟩

/-- The invariant of executions without failing writes. -/
structure Calmly (pickles fails : Task σ → Bool) (s : State σ) : Prop where
  inv : Inv pickles fails s
  waiting : Waiting s
  past : onDisk s.past = called s.past
  pickled : ∀ t ∈ called s.past, pickles t = true
  last : s.log.getLast? = some .joined → s.dropped = []
  ok : executed s.log = onDisk s.log

/-- Before `join` returns, everything is on disk. -/
theorem all_on_disk {pickles fails : Task σ → Bool} (hok : ∀ t, fails t = false) {s : State σ} (hi : Inv pickles fails s)
    (hw : Waiting s) {r : Bool} (hpc : s.pc = .joinThread r) (hdead : s.worker.alive = false) :
    onDisk s.log = called s.log ∧ s.dropped = [] ∧ ∀ t ∈ called s.log, pickles t = true := by
  have hd : s.dropped = [] := by
    by_contra hd
    rcases hw hd with ⟨r', hr⟩ | ⟨h1, -⟩
    · rw [hpc] at hr; cases hr
    · exact h1 r hpc
  have hg := good_recent hok hi hd
  have h1 := hg.fifo
  have hq : s.pipe ++ s.buffer = [] ∧ s.recent.pending = [] := by
    have h2 := hg.phase
    obtain ⟨obj, cmds, pc, buffer, pipe, dropped, unf, worker, past, log⟩ := s
    simp only at hpc hdead
    subst hpc
    cases worker <;> simp [Worker.alive] at hdead
    have h3 : pipe ++ buffer = [] := h2.1
    refine ⟨h3, ?_⟩
    simp [State.recent, Writer.State.recent, State.thread, Writer.State.pending, h3]
  rw [hq.2, List.append_nil] at h1
  refine ⟨h1.symm, hd, fun t ht => ?_⟩
  have h4 := hi.lost
  have hb : s.buffer = [] := (List.append_eq_nil_iff.1 hq.1).2
  rw [hd, State.early, hb, hpc] at h4
  by_contra hp
  have : t ∈ (called s.log).filter fun t => !pickles t := List.mem_filter.2 ⟨ht, by simpa using hp⟩
  rw [h4] at this
  simp at this

theorem calmly_caller {pickles fails : Task σ → Bool} (hok : ∀ t, fails t = false) {s s' : State σ} (hi : Calmly pickles fails s)
    (h : callerStep s = some s') : Calmly pickles fails s' := by
  have hp := hi.past
  have hk := hi.pickled
  have hl := hi.last
  have ho := hi.ok
  have hsnoc : ∀ e : Event σ, executed [e] = onDisk [e] → executed (s.log ++ [e]) = onDisk (s.log ++ [e]) := by
    intro e he
    rw [executed_append, onDisk_append, ho, he]
  have hall := fun r => all_on_disk hok (r := r) hi.inv hi.waiting
  suffices hh : onDisk s'.past = called s'.past ∧ (∀ t ∈ called s'.past, pickles t = true) ∧
      (s'.log.getLast? = some .joined → s'.dropped = []) ∧ executed s'.log = onDisk s'.log from
    ⟨inv_caller hi.inv h, waiting_caller hi.inv hi.waiting h, hh.1, hh.2.1, hh.2.2.1, hh.2.2.2⟩
  obtain ⟨obj, cmds, pc, buffer, pipe, dropped, unf, worker, past, log⟩ := s
  simp only at hp hall hk hl ho hsnoc
  simp only [callerStep] at h
  cases pc with
  | ready =>
    cases cmds with
    | nil => cases h
    | cons c cmds =>
      cases c with
      | write target =>
        simp only at h
        split at h <;> cases h <;> exact ⟨hp, hk, (fun h => by simp at h), hsnoc _ rfl⟩
      | _ => cases h; exact ⟨hp, hk, hl, ho⟩
  | put t => cases h; exact ⟨hp, hk, hl, ho⟩
  | joinPut r => cases h; exact ⟨hp, hk, hl, ho⟩
  | joinWait r =>
    simp only at h
    split at h <;> cases h
    exact ⟨hp, hk, hl, ho⟩
  | joinThread r =>
    simp only at h
    split at h <;> rename_i ha
    · cases h
    · obtain ⟨h1, h2, h3⟩ := hall r rfl (by simpa using ha)
      split at h <;> cases h
      · refine ⟨?_, ?_, fun _ => rfl, rfl⟩
        · simp only [onDisk_append, called_append, hp, h1]
          rfl
        · intro t ht
          simp only [called_append, List.mem_append] at ht
          rcases ht with (ht | ht) | ht
          · exact hk t ht
          · exact h3 t ht
          · simp [called] at ht
      · exact ⟨hp, hk, fun _ => h2, hsnoc _ rfl⟩

theorem calmly_feeder {pickles fails : Task σ → Bool} (hok : ∀ t, fails t = false) {s s' : State σ} (hi : Calmly pickles fails s)
    (h : feederStep pickles s = some s') : Calmly pickles fails s' := by
  have hi' := inv_feeder hi.inv h
  have hw' := waiting_feeder hok hi.inv hi.waiting h
  rcases feeder_cases h with ⟨h1, h2, -⟩ | ⟨t, rest, hb, -, rfl⟩
  · have hp : s'.past = s.past := congrArg Writer.State.past h1
    have hl : s'.log = s.log := congrArg Writer.State.log h1
    exact ⟨hi', hw', by rw [hp]; exact hi.past, by rw [hp]; exact hi.pickled, by rw [hl, h2]; exact hi.last, by rw [hl]; exact hi.ok⟩
  · refine ⟨hi', hw', hi.past, hi.pickled, fun hl => ?_, hi.ok⟩
    have hd := hi.last hl
    have h2 := (good_recent hok hi.inv hd).joined hl
    have : t ∈ s.recent.pending := by
      simp [State.recent, Writer.State.recent, State.thread, Writer.State.pending, hb]
    rw [h2] at this
    cases this

theorem calmly_worker {pickles fails : Task σ → Bool} (hok : ∀ t, fails t = false) {s s' : State σ} (hi : Calmly pickles fails s)
    (h : workerStep fails s = some s') : Calmly pickles fails s' := by
  have hp := hi.past
  have hk := hi.pickled
  have hl := hi.last
  have ho := hi.ok
  have hsnoc : ∀ e : Event σ, executed [e] = onDisk [e] → executed (s.log ++ [e]) = onDisk (s.log ++ [e]) := by
    intro e he
    rw [executed_append, onDisk_append, ho, he]
  suffices hh : s'.past = s.past ∧ (s'.log.getLast? = some .joined → s'.dropped = []) ∧ executed s'.log = onDisk s'.log from
    ⟨inv_worker hi.inv h, waiting_worker hok hi.waiting h, by rw [hh.1]; exact hp, by rw [hh.1]; exact hk, hh.2.1, hh.2.2⟩
  obtain ⟨obj, cmds, pc, buffer, pipe, dropped, unf, worker, past, log⟩ := s
  simp only [workerStep] at h
  cases worker with
  | idle =>
    simp only at h
    cases pipe <;> cases h
    exact ⟨rfl, hl, ho⟩
  | got t =>
    cases t with
    | none => cases h; exact ⟨rfl, hl, ho⟩
    | some t => simp only [hok, Bool.false_eq_true, if_false] at h; cases h; exact ⟨rfl, (fun h => by simp at h), hsnoc _ rfl⟩
  | finishing stop => cases h; exact ⟨rfl, hl, ho⟩
  | exiting => cases h; exact ⟨rfl, (fun h => by simp at h), hsnoc _ rfl⟩
  | dead => cases h

theorem calmly_init (pickles fails : Task σ → Bool) (obj : σ) (cmds : List (Cmd σ)) : Calmly pickles fails (init obj cmds) :=
  ⟨inv_init pickles fails obj cmds, fun h => absurd rfl h, rfl, (fun t ht => by simp [init, called] at ht), fun _ => rfl, rfl⟩

theorem calmly_run {pickles fails : Task σ → Bool} (hok : ∀ t, fails t = false) (obj : σ) (cmds : List (Cmd σ)) (schedule : List Actor) :
    Calmly pickles fails (run pickles fails schedule (init obj cmds)) :=
  run_induction (calmly_init pickles fails obj cmds) (fun _ _ => calmly_caller hok) (fun _ _ => calmly_feeder hok)
    (fun _ _ => calmly_worker hok) schedule

/-- No actor can make a step. -/
def Stuck (pickles fails : Task σ → Bool) (s : State σ) : Prop :=
  callerStep s = none ∧ feederStep pickles s = none ∧ workerStep fails s = none

/-- Steps that remain at most. -/
def State.cost (s : State σ) : Nat :=
  Writer.cost s.cmds + s.pc.cost + 6 * s.buffer.length + 5 * s.pipe.length + s.worker.cost

theorem caller_cost {s s' : State σ} (h : callerStep s = some s') : s'.cost < s.cost := by
  obtain ⟨obj, cmds, pc, buffer, pipe, dropped, unf, worker, past, log⟩ := s
  simp only [callerStep] at h
  cases pc with
  | ready =>
    cases cmds with
    | nil => cases h
    | cons c cmds =>
      cases c with
      | mutate v => cases h; simp [State.cost, cost]
      | write target =>
        simp only at h
        split at h <;> cases h <;> simp [State.cost, cost, Pc.cost] <;> omega
      | join =>
        cases h
        simp only [State.cost, cost, startJoin]
        split <;> simp [Pc.cost] <;> omega
      | restart =>
        cases h
        simp only [State.cost, cost, startJoin]
        split <;> simp [Pc.cost] <;> omega
  | put t => cases h; simp [State.cost, Pc.cost]; omega
  | joinPut r => cases h; simp [State.cost, Pc.cost]; omega
  | joinWait r =>
    simp only at h
    split at h <;> cases h
    simp [State.cost, Pc.cost]
  | joinThread r =>
    simp only at h
    split at h
    · cases h
    · split at h <;> cases h <;> simp [State.cost, Pc.cost, Worker.cost] <;> omega

theorem worker_cost {fails : Task σ → Bool} {s s' : State σ} (h : workerStep fails s = some s') : s'.cost < s.cost := by
  obtain ⟨obj, cmds, pc, buffer, pipe, dropped, unf, worker, past, log⟩ := s
  simp only [workerStep] at h
  cases worker with
  | idle =>
    simp only at h
    cases pipe with
    | nil => cases h
    | cons t pipe => cases h; simp [State.cost, Worker.cost]; omega
  | got t =>
    cases t with
    | none => cases h; simp [State.cost, Worker.cost]
    | some t =>
      simp only at h
      split at h <;> cases h <;> simp [State.cost, Worker.cost]
  | finishing stop => cases h; cases stop <;> simp [State.cost, Worker.cost]
  | exiting => cases h; simp [State.cost, Worker.cost]
  | dead => cases h

theorem feeder_cost {pickles : Task σ → Bool} {s s' : State σ} (h : feederStep pickles s = some s') : s'.cost < s.cost := by
  obtain ⟨obj, cmds, pc, buffer, pipe, dropped, unf, worker, past, log⟩ := s
  simp only [feederStep] at h
  cases buffer with
  | nil => cases h
  | cons t buffer =>
    cases t with
    | none => cases h; simp [State.cost]; omega
    | some t =>
      simp only at h
      split at h <;> cases h <;> simp [State.cost] <;> omega

theorem step_cost (pickles fails : Task σ → Bool) (a : Actor) (s : State σ) :
    step pickles fails a s = s ∨ (step pickles fails a s).cost < s.cost := by
  cases a with
  | caller =>
    simp only [step]
    cases h : callerStep s with
    | none => exact .inl rfl
    | some s' => exact .inr (caller_cost h)
  | feeder =>
    simp only [step]
    cases h : feederStep pickles s with
    | none => exact .inl rfl
    | some s' => exact .inr (feeder_cost h)
  | worker =>
    simp only [step]
    cases h : workerStep fails s with
    | none => exact .inl rfl
    | some s' => exact .inr (worker_cost h)

theorem stuck_of_still {pickles fails : Task σ → Bool} {s : State σ} (h : ∀ a, step pickles fails a s = s) : Stuck pickles fails s := by
  refine ⟨?_, ?_, ?_⟩
  · cases h' : callerStep s with
    | none => rfl
    | some s' =>
      have := h .caller
      simp only [step, h', Option.getD_some] at this
      exact absurd (caller_cost h') (by rw [this]; omega)
  · cases h' : feederStep pickles s with
    | none => rfl
    | some s' =>
      have := h .feeder
      simp only [step, h', Option.getD_some] at this
      exact absurd (feeder_cost h') (by rw [this]; omega)
  · cases h' : workerStep fails s with
    | none => rfl
    | some s' =>
      have := h .worker
      simp only [step, h', Option.getD_some] at this
      exact absurd (worker_cost h') (by rw [this]; omega)

/-- Every fair schedule comes to a state in which no actor can make a step. -/
theorem fair_stuck (pickles fails : Task σ → Bool) (obj : σ) (cmds : List (Cmd σ))
    (schedule : Nat → Actor) (hfair : ∀ a n, ∃ m, n ≤ m ∧ schedule m = a) :
    ∃ n, Stuck pickles fails (run pickles fails ((List.range n).map schedule) (init obj cmds)) := by
  obtain ⟨st, hst⟩ : ∃ st : Nat → State σ, st = fun n => run pickles fails ((List.range n).map schedule) (init obj cmds) := ⟨_, rfl⟩
  have hsucc : ∀ n, st (n + 1) = step pickles fails (schedule n) (st n) := by
    intro n
    rw [hst]
    simp only [List.range_succ, List.map_append, run_append]
    rfl
  suffices h : ∀ c n, (st n).cost = c → ∃ m, Stuck pickles fails (st m) by
    obtain ⟨m, hm⟩ := h _ 0 rfl
    exact ⟨m, by rw [hst] at hm; exact hm⟩
  intro c
  induction c using Nat.strongRecOn with
  | ind c ih =>
    intro n hc
    by_cases hall : ∀ m, n ≤ m → st m = st n
    · refine ⟨n, stuck_of_still fun a => ?_⟩
      obtain ⟨m, hm, ha⟩ := hfair a n
      have h1 := hall (m + 1) (by omega)
      rw [hsucc, ha, hall m hm] at h1
      exact h1
    · -- the state changes, and the cost becomes smaller
      have hle : ∀ k, st (n + k) = st n ∨ (st (n + k)).cost < (st n).cost := by
        intro k
        induction k with
        | zero => exact .inl rfl
        | succ k ihk =>
          rw [← Nat.add_assoc, hsucc]
          rcases step_cost pickles fails (schedule (n + k)) (st (n + k)) with h | h
          · rw [h]; exact ihk
          · rcases ihk with h' | h'
            · rw [h'] at h ⊢
              exact .inr h
            · exact .inr (h.trans h')
      by_contra hno
      refine hall fun m hm => ?_
      obtain ⟨k, rfl⟩ := Nat.exists_eq_add_of_le hm
      rcases hle k with h | h
      · exact h
      · exact absurd (ih _ (by omega) (n + k) rfl) hno

end Qtune.Writer.Process
