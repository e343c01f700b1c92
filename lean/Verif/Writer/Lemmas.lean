import Verif.Writer.Spec
import Mathlib.Data.List.Basic

/-! # Invariants of the writer -/

namespace Qtune.Writer

variable {σ : Type}

/-- The tasks that were accepted and not executed yet. -/
def State.pending (s : State σ) : List (Task σ) :=
  (match s.worker with | .got (some t) => [t] | _ => []) ++ s.queue.filterMap id ++
    (match s.pc with | .put t => [t] | _ => [])

/-- The worker holds an element that is not finished. -/
def Worker.holds : Worker σ → Nat
  | .got _ => 1
  | .finishing _ => 1
  | _ => 0

/-- An invariant of all executions. -/
structure Inv (s : State σ) : Prop where
  conserve : called s.log = executed s.log ++ s.pending
  unfinished : s.unfinished = s.queue.length + s.worker.holds
  died : ∀ pre post, s.log = pre ++ .died :: post → called post = []
  dead : .died ∈ s.log → s.worker.alive = false

theorem called_append (l l' : List (Event σ)) : called (l ++ l') = called l ++ called l' :=
  List.filterMap_append

theorem executed_append (l l' : List (Event σ)) : executed (l ++ l') = executed l ++ executed l' :=
  List.filterMap_append

theorem onDisk_append (l l' : List (Event σ)) : onDisk (l ++ l') = onDisk l ++ onDisk l' :=
  List.filterMap_append

theorem split_snoc {β : Type} {l pre post : List β} {a d : β} (h : l ++ [a] = pre ++ d :: post) :
    (post = [] ∧ pre = l ∧ a = d) ∨ ∃ post', post = post' ++ [a] ∧ l = pre ++ d :: post' := by
  rcases List.eq_nil_or_concat post with rfl | ⟨post', b, rfl⟩
  · left
    have := List.append_inj' h rfl
    simp at this
    exact ⟨rfl, this.1.symm, this.2⟩
  · right
    simp only [List.concat_eq_append] at h ⊢
    rw [show pre ++ d :: (post' ++ [b]) = (pre ++ d :: post') ++ [b] by simp] at h
    have := List.append_inj' h rfl
    simp at this
    exact ⟨post', by rw [this.2], this.1⟩

/-- An event that is not a call is appended. -/
theorem died_snoc {l : List (Event σ)} {e : Event σ} (h : ∀ pre post, l = pre ++ .died :: post → called post = [])
    (he : called [e] = [] ∨ .died ∉ l) :
    ∀ pre post, l ++ [e] = pre ++ .died :: post → called post = [] := by
  intro pre post hp
  rcases split_snoc hp with ⟨rfl, -, -⟩ | ⟨post', rfl, hl⟩
  · rfl
  · rw [called_append, h pre post' hl]
    rcases he with he | he
    · simp [he]
    · exact absurd (by rw [hl]; simp) he

theorem inv_init (obj : σ) (cmds : List (Cmd σ)) : Inv (init obj cmds) :=
  ⟨rfl, rfl, fun pre post h => by simp [init] at h, fun h => by simp [init] at h⟩

theorem pending_startJoin (r : Bool) (obj : σ) (cmds : List (Cmd σ)) (queue : List (Option (Task σ))) (unf : Nat)
    (worker : Worker σ) (past log : List (Event σ)) :
    (startJoin r ⟨obj, cmds, .ready, queue, unf, worker, past, log⟩).pending =
      State.pending ⟨obj, cmds, .ready, queue, unf, worker, past, log⟩ := by
  simp only [State.pending, startJoin]
  by_cases ha : worker.alive = true
  · simp only [ha, if_true]
  · simp only [ha, if_false]
    rfl

theorem inv_caller {s s' : State σ} (hi : Inv s) (h : callerStep s = some s') : Inv s' := by
  obtain ⟨obj, cmds, pc, queue, unf, worker, past, log⟩ := s
  obtain ⟨hc, hu, hd, hdead⟩ := hi
  simp only [callerStep] at h
  cases pc with
  | ready =>
    cases cmds with
    | nil => cases h
    | cons c cmds =>
      cases c with
      | mutate v => cases h; exact ⟨hc, hu, hd, hdead⟩
      | write target =>
        simp only at h
        by_cases ha : worker.alive = true
        · rw [if_pos ha] at h
          cases h
          have hn : Event.died ∉ log := by
            intro hm
            have := hdead hm
            simp only at this
            rw [ha] at this
            cases this
          refine ⟨?_, hu, died_snoc hd (Or.inr hn), ?_⟩
          · simp only [called_append, executed_append, State.pending] at hc ⊢
            rw [hc]
            simp [called, executed]
          · intro hm
            simp only [List.mem_append, List.mem_singleton] at hm
            rcases hm with hm | hm
            · exact absurd hm hn
            · cases hm
        · rw [if_neg ha] at h
          cases h
          refine ⟨?_, hu, died_snoc hd (Or.inl rfl), fun _ => by simpa using ha⟩
          simp only [called_append, executed_append, State.pending] at hc ⊢
          rw [hc]
          simp [called, executed]
      | join =>
        cases h
        refine ⟨?_, hu, hd, hdead⟩
        rw [pending_startJoin]
        exact hc
      | restart =>
        cases h
        refine ⟨?_, hu, hd, hdead⟩
        rw [pending_startJoin]
        exact hc
  | put t =>
    cases h
    refine ⟨?_, ?_, hd, hdead⟩
    · simp only [State.pending, List.filterMap_append] at hc ⊢
      simpa using hc
    · simp only [List.length_append, List.length_singleton] at hu ⊢
      omega
  | joinPut r =>
    cases h
    refine ⟨?_, ?_, hd, hdead⟩
    · simp only [State.pending, List.filterMap_append] at hc ⊢
      simpa using hc
    · simp only [List.length_append, List.length_singleton] at hu ⊢
      omega
  | joinWait r =>
    simp only at h
    split at h
    · cases h
      exact ⟨hc, hu, hd, hdead⟩
    · cases h
  | joinThread r =>
    simp only at h
    split at h
    · cases h
    · rename_i ha
      split at h
      · cases h
        exact ⟨rfl, rfl, fun pre post h => by simp at h, fun h => by simp at h⟩
      · cases h
        refine ⟨?_, hu, died_snoc hd (Or.inl rfl), fun _ => by simpa using ha⟩
        simp only [called_append, executed_append, State.pending] at hc ⊢
        rw [hc]
        simp [called, executed]

theorem inv_worker {fails : Task σ → Bool} {s s' : State σ} (hi : Inv s) (h : workerStep fails s = some s') :
    Inv s' := by
  obtain ⟨obj, cmds, pc, queue, unf, worker, past, log⟩ := s
  obtain ⟨hc, hu, hd, hdead⟩ := hi
  have hnd : worker.alive = true → Event.died ∉ log := by
    intro ha hm
    have := hdead hm
    simp only at this
    rw [ha] at this
    cases this
  simp only [workerStep] at h
  cases worker with
  | idle =>
    simp only at h
    cases queue with
    | nil => cases h
    | cons t queue =>
      cases h
      refine ⟨?_, ?_, hd, fun hm => absurd hm (hnd rfl)⟩
      · cases t <;> simpa [State.pending] using hc
      · simp only [List.length_cons, Worker.holds] at hu ⊢
        omega
  | got t =>
    cases t with
    | none =>
      cases h
      exact ⟨by simpa [State.pending] using hc, hu, hd, fun hm => absurd hm (hnd rfl)⟩
    | some t =>
      simp only at h
      split at h <;> cases h
      all_goals
        refine ⟨?_, hu, died_snoc hd (Or.inl rfl), ?_⟩
        · simp only [called_append, executed_append, State.pending] at hc ⊢
          rw [hc]
          simp [called, executed]
        · intro hm
          simp only [List.mem_append, List.mem_singleton] at hm
          rcases hm with hm | hm
          · exact absurd hm (hnd rfl)
          · cases hm
  | finishing stop =>
    cases h
    refine ⟨?_, ?_, hd, fun hm => absurd hm (hnd rfl)⟩
    · cases stop <;> simpa [State.pending] using hc
    · cases stop <;> simp only [Worker.holds] at hu ⊢ <;> simp <;> omega
  | exiting =>
    cases h
    refine ⟨?_, hu, died_snoc hd (Or.inl rfl), fun _ => rfl⟩
    simp only [called_append, executed_append, State.pending] at hc ⊢
    rw [hc]
    simp [called, executed]
  | dead => cases h

theorem inv_step (fails : Task σ → Bool) (a : Actor) {s : State σ} (hi : Inv s) : Inv (step fails a s) := by
  cases a with
  | caller =>
    simp only [step]
    cases h : callerStep s with
    | none => exact hi
    | some s' => exact inv_caller hi h
  | worker =>
    simp only [step]
    cases h : workerStep fails s with
    | none => exact hi
    | some s' => exact inv_worker hi h

theorem inv_run (fails : Task σ → Bool) : ∀ (as : List Actor) (s : State σ), Inv s → Inv (run fails as s)
  | [], _, h => h
  | a :: as, s, h => inv_run fails as _ (inv_step fails a h)

/-- The worker will not execute another task. -/
def Worker.stopped : Worker σ → Prop
  | .finishing true => True
  | .exiting => True
  | .dead => True
  | _ => False

/-- The invariant of failing writes. -/
structure Failing (fails : Task σ → Bool) (s : State σ) : Prop where
  disk : ∀ t ∈ onDisk s.events, fails t = false
  failed : ∀ before t after, s.log = before ++ .failed t :: after → fails t = true ∧ executed after = []
  stopped : (∃ t, .failed t ∈ s.log) → s.worker.stopped

theorem failing_init (fails : Task σ → Bool) (obj : σ) (cmds : List (Cmd σ)) : Failing fails (init obj cmds) :=
  ⟨fun t h => by simp [init, State.events, onDisk] at h, fun b t a h => by simp [init] at h,
    fun h => by simp [init] at h⟩

/-- An event that is neither a write nor a failure. -/
theorem failing_event {fails : Task σ → Bool} {s s' : State σ} (hi : Failing fails s) {e : Event σ}
    (h1 : s'.past = s.past) (h2 : s'.log = s.log ++ [e]) (h3 : s.worker.stopped → s'.worker.stopped)
    (he : executed [e] = []) : Failing fails s' := by
  have hne : ∀ t, e ≠ .failed t ∧ e ≠ .written t := by
    intro t; constructor <;> rintro rfl <;> simp [executed] at he
  refine ⟨?_, ?_, ?_⟩
  · intro t ht
    refine hi.disk t ?_
    unfold State.events at ht ⊢
    rw [h1, h2, ← List.append_assoc, onDisk_append] at ht
    rcases List.mem_append.1 ht with ht | ht
    · exact ht
    · exfalso
      unfold onDisk at ht
      obtain ⟨e', h4, h5⟩ := List.mem_filterMap.1 ht
      rw [List.mem_singleton] at h4
      subst h4
      cases e' <;> simp at h5
      exact (hne _).2 rfl
  · intro before t after h
    rw [h2] at h
    rcases split_snoc h with ⟨-, -, h4⟩ | ⟨after', rfl, h5⟩
    · exact absurd h4 (hne t).1
    · obtain ⟨h6, h7⟩ := hi.failed _ _ _ h5
      exact ⟨h6, by rw [executed_append, h7, he]; rfl⟩
  · rintro ⟨t, ht⟩
    rw [h2] at ht
    rcases List.mem_append.1 ht with ht | ht
    · exact h3 (hi.stopped ⟨t, ht⟩)
    · rw [List.mem_singleton] at ht
      exact absurd ht.symm (hne t).1

theorem failing_same {fails : Task σ → Bool} {s s' : State σ} (hi : Failing fails s) (h1 : s'.past = s.past)
    (h2 : s'.log = s.log) (h3 : s.worker.stopped → s'.worker.stopped) : Failing fails s' :=
  ⟨fun t ht => hi.disk t (by unfold State.events at ht ⊢; rw [h1, h2] at ht; exact ht),
    fun b t a h => hi.failed b t a (h2 ▸ h), fun h => h3 (hi.stopped (h2 ▸ h))⟩

theorem failing_caller {fails : Task σ → Bool} {s s' : State σ} (hi : Failing fails s)
    (h : callerStep s = some s') : Failing fails s' := by
  unfold callerStep at h
  split at h
  · split at h
    · cases h
    · cases h; exact failing_same hi rfl rfl id
    · split at h <;> cases h
      · exact failing_event hi rfl rfl id rfl
      · exact failing_event hi rfl rfl id rfl
    · cases h; exact failing_same hi rfl rfl id
    · cases h; exact failing_same hi rfl rfl id
  · cases h; exact failing_same hi rfl rfl id
  · cases h; exact failing_same hi rfl rfl id
  · split at h <;> cases h
    exact failing_same hi rfl rfl id
  · split at h
    · cases h
    · split at h <;> cases h
      · refine ⟨?_, fun b t a h => by simp at h, fun h => by simp at h⟩
        intro t ht
        refine hi.disk t ?_
        simp only [State.events, List.append_nil] at ht ⊢
        rw [onDisk_append] at ht
        rcases List.mem_append.1 ht with ht | ht
        · exact ht
        · simp [onDisk] at ht
      · exact failing_event hi rfl rfl id rfl

theorem failing_worker {fails : Task σ → Bool} {s s' : State σ} (hi : Failing fails s)
    (h : workerStep fails s = some s') : Failing fails s' := by
  obtain ⟨obj, cmds, pc, queue, unf, worker, past, log⟩ := s
  have hnone : ¬ worker.stopped → ∀ t, Event.failed t ∉ log := fun h t ht => h (hi.stopped ⟨t, ht⟩)
  unfold workerStep at h
  cases worker with
  | idle =>
    cases queue with
    | nil => cases h
    | cons t queue => cases h; exact failing_same hi rfl rfl (fun h => h.elim)
  | got t =>
    cases t with
    | none => cases h; exact failing_same hi rfl rfl (fun h => h.elim)
    | some t =>
      have hn := hnone id
      dsimp only at h
      split at h
      · rename_i hft
        cases h
        refine ⟨?_, ?_, fun _ => trivial⟩
        · intro t' ht'
          refine hi.disk t' ?_
          simp only [State.events] at ht' ⊢
          rw [← List.append_assoc, onDisk_append] at ht'
          rcases List.mem_append.1 ht' with ht' | ht'
          · exact ht'
          · simp [onDisk] at ht'
        · intro before t' after h'
          rcases split_snoc h' with ⟨rfl, -, h4⟩ | ⟨after', rfl, h5⟩
          · cases h4; exact ⟨hft, rfl⟩
          · exact absurd (by rw [h5]; simp) (hn t')
      · rename_i hft
        cases h
        refine ⟨?_, ?_, ?_⟩
        · intro t' ht'
          simp only [State.events] at ht'
          rw [← List.append_assoc, onDisk_append] at ht'
          rcases List.mem_append.1 ht' with ht' | ht'
          · exact hi.disk t' ht'
          · simp only [onDisk, List.filterMap_cons, List.filterMap_nil, List.mem_singleton] at ht'
            subst ht'
            simpa using hft
        · intro before t' after h'
          rcases split_snoc h' with ⟨-, -, h4⟩ | ⟨after', rfl, h5⟩
          · cases h4
          · exact absurd (by rw [h5]; simp) (hn t')
        · rintro ⟨t', ht'⟩
          rcases List.mem_append.1 ht' with ht' | ht'
          · exact absurd ht' (hn t')
          · simp at ht'
  | finishing stop =>
    cases h
    refine failing_same hi rfl rfl ?_
    cases stop
    · exact fun h => h.elim
    · exact fun _ => trivial
  | exiting => cases h; exact failing_event hi rfl rfl (fun _ => trivial) rfl
  | dead => cases h

theorem failing_run (fails : Task σ → Bool) :
    ∀ (as : List Actor) (s : State σ), Failing fails s → Failing fails (run fails as s)
  | [], _, h => h
  | a :: as, s, h => by
    refine failing_run fails as _ ?_
    cases a with
    | caller =>
      simp only [step]
      cases h' : callerStep s with
      | none => exact h
      | some s' => exact failing_caller h h'
    | worker =>
      simp only [step]
      cases h' : workerStep fails s with
      | none => exact h
      | some s' => exact failing_worker h h'

/-- Only tasks in the queue. -/
def OnlyTasks (queue : List (Option (Task σ))) : Prop := ∀ t, t ∈ queue → t ≠ none

/-- Where the actors can be at the same time, if no task fails. -/
def Phase (pc : Pc σ) (queue : List (Option (Task σ))) : Worker σ → Prop
  | .idle | .got (some _) | .finishing false =>
    match pc with
    | .joinThread _ => False
    | .joinWait _ => ∃ q, queue = q ++ [none] ∧ OnlyTasks q
    | _ => OnlyTasks queue
  | .got none | .finishing true =>
    queue = [] ∧ match pc with | .joinWait _ => True | _ => False
  | .exiting => queue = [] ∧ match pc with | .joinWait _ => True | .joinThread _ => True | _ => False
  | .dead => queue = [] ∧ match pc with | .put _ => False | .joinPut _ => False | _ => True

/-- The invariant of executions without failures. -/
structure Good (s : State σ) : Prop where
  phase : Phase s.pc s.queue s.worker
  unfinished : s.unfinished = s.queue.length + s.worker.holds
  fifo : called s.events = onDisk s.events ++ s.pending
  joined : s.events.getLast? = some .joined → s.pending = []

theorem good_init (obj : σ) (cmds : List (Cmd σ)) : Good (init obj cmds) :=
  ⟨fun t h => by simp [init] at h, rfl, rfl, fun h => by simp [init, State.events] at h⟩

theorem phase_startJoin (r : Bool) (obj : σ) (cmds : List (Cmd σ)) (queue : List (Option (Task σ))) (unf : Nat)
    (worker : Worker σ) (past log : List (Event σ)) (h : Phase .ready queue worker) :
    Phase (startJoin r ⟨obj, cmds, .ready, queue, unf, worker, past, log⟩).pc queue worker := by
  cases worker with
  | got t => cases t <;> simp_all [Phase, startJoin, Worker.alive]
  | finishing b => cases b <;> simp_all [Phase, startJoin, Worker.alive]
  | _ => simp_all [Phase, startJoin, Worker.alive]

theorem good_caller {s s' : State σ} (hi : Good s) (h : callerStep s = some s') : Good s' := by
  obtain ⟨obj, cmds, pc, queue, unf, worker, past, log⟩ := s
  obtain ⟨hp, hu, hf, hj⟩ := hi
  simp only [callerStep] at h
  simp only [State.events] at hf hj
  cases pc with
  | ready =>
    cases cmds with
    | nil => cases h
    | cons c cmds =>
      cases c with
      | mutate v => cases h; exact ⟨hp, hu, hf, hj⟩
      | write target =>
        simp only at h
        by_cases ha : worker.alive = true
        · rw [if_pos ha] at h
          cases h
          refine ⟨?_, hu, ?_, ?_⟩
          · cases worker with
            | got t => cases t <;> simp_all [Phase]
            | finishing b => cases b <;> simp_all [Phase]
            | dead => cases ha
            | _ => simp_all [Phase]
          · simp only [State.events, ← List.append_assoc, called_append _ [_], onDisk_append _ [_]]
            rw [hf]
            simp [called, onDisk, State.pending]
          · intro h
            simp [State.events, ← List.append_assoc] at h
        · rw [if_neg ha] at h
          cases h
          refine ⟨hp, hu, ?_, ?_⟩
          · simp only [State.events, ← List.append_assoc, called_append _ [_], onDisk_append _ [_]]
            rw [hf]
            simp [called, onDisk, State.pending]
          · intro h
            simp [State.events, ← List.append_assoc] at h
      | join =>
        cases h
        refine ⟨phase_startJoin _ _ _ _ _ _ _ _ hp, hu, ?_, ?_⟩
        · rw [pending_startJoin]
          exact hf
        · rw [pending_startJoin]
          exact hj
      | restart =>
        cases h
        refine ⟨phase_startJoin _ _ _ _ _ _ _ _ hp, hu, ?_, ?_⟩
        · rw [pending_startJoin]
          exact hf
        · rw [pending_startJoin]
          exact hj
  | put t =>
    cases h
    have hpend : State.pending (σ := σ) ⟨obj, cmds, .ready, queue ++ [some t], unf + 1, worker, past, log⟩ =
        State.pending ⟨obj, cmds, .put t, queue, unf, worker, past, log⟩ := by
      simp [State.pending]
    refine ⟨?_, ?_, ?_, ?_⟩
    · have hq : OnlyTasks queue → OnlyTasks (queue ++ [some t]) := by
        intro h u hu'
        rcases List.mem_append.1 hu' with h1 | h1
        · exact h u h1
        · simp only [List.mem_singleton] at h1
          simp [h1]
      cases worker with
      | got t => cases t <;> simp_all [Phase]
      | finishing b => cases b <;> simp_all [Phase]
      | _ => simp_all [Phase]
    · simp only [List.length_append, List.length_singleton] at hu ⊢
      omega
    · simp only [State.events]
      rw [hpend]
      exact hf
    · intro h
      rw [hpend]
      exact hj h
  | joinPut r =>
    cases h
    have hpend : State.pending (σ := σ) ⟨obj, cmds, .joinWait r, queue ++ [none], unf + 1, worker, past, log⟩ =
        State.pending ⟨obj, cmds, .joinPut r, queue, unf, worker, past, log⟩ := by
      simp [State.pending]
    refine ⟨?_, ?_, ?_, ?_⟩
    · cases worker with
      | got t => cases t <;> simp_all [Phase]
      | finishing b => cases b <;> simp_all [Phase]
      | _ => simp_all [Phase]
    · simp only [List.length_append, List.length_singleton] at hu ⊢
      omega
    · simp only [State.events]
      rw [hpend]
      exact hf
    · intro h
      rw [hpend]
      exact hj h
  | joinWait r =>
    simp only at h
    split at h
    · rename_i h0
      cases h
      refine ⟨?_, hu, hf, hj⟩
      simp only at hu
      rw [h0] at hu
      cases worker with
      | got t => simp [Worker.holds] at hu
      | finishing b => simp [Worker.holds] at hu
      | idle =>
        obtain ⟨q, hq, -⟩ := hp
        simp only at hq
        rw [hq] at hu
        simp at hu
        omega
      | _ => simp_all [Phase]
    · cases h
  | joinThread r =>
    simp only at h
    split at h
    · cases h
    · rename_i ha
      cases worker with
      | dead =>
        have hq : queue = [] := hp.1
        subst hq
        split at h
        · cases h
          refine ⟨fun t h => by simp at h, rfl, ?_, fun _ => rfl⟩
          simp only [State.events, List.append_nil, called_append _ [_], onDisk_append _ [_]]
          rw [hf]
          simp [called, onDisk, State.pending]
        · cases h
          refine ⟨⟨rfl, trivial⟩, hu, ?_, fun _ => rfl⟩
          simp only [State.events, ← List.append_assoc, called_append _ [_], onDisk_append _ [_]]
          rw [hf]
          simp [called, onDisk, State.pending]
      | _ => simp [Worker.alive] at ha

theorem good_worker {fails : Task σ → Bool} (hok : ∀ t, fails t = false) {s s' : State σ} (hi : Good s)
    (h : workerStep fails s = some s') : Good s' := by
  obtain ⟨obj, cmds, pc, queue, unf, worker, past, log⟩ := s
  obtain ⟨hp, hu, hf, hj⟩ := hi
  simp only [workerStep] at h
  simp only [State.events] at hf hj
  cases worker with
  | idle =>
    simp only at h
    cases queue with
    | nil => cases h
    | cons t queue =>
      cases h
      have hpend : State.pending (σ := σ) ⟨obj, cmds, pc, queue, unf, .got t, past, log⟩ =
          State.pending ⟨obj, cmds, pc, t :: queue, unf, .idle, past, log⟩ := by
        cases t <;> simp [State.pending]
      refine ⟨?_, ?_, ?_, ?_⟩
      · cases t with
        | none =>
          cases pc with
          | joinWait r =>
            obtain ⟨q, hq, ho⟩ := hp
            cases q with
            | nil => simp at hq; simp [Phase, hq]
            | cons a q =>
              simp at hq
              exact absurd hq.1.symm (ho a (by simp))
          | joinThread r => exact hp.elim
          | _ => exact absurd rfl (hp none (by simp))
        | some t =>
          have hsub : ∀ {q : List (Option (Task σ))}, OnlyTasks (some t :: q) → OnlyTasks q :=
            fun h u hu => h u (by simp [hu])
          cases pc with
          | joinWait r =>
            obtain ⟨q, hq, ho⟩ := hp
            cases q with
            | nil => simp at hq
            | cons a q =>
              simp at hq
              refine ⟨q, hq.2, fun u hu => ho u (by simp [hu])⟩
          | joinThread r => exact hp.elim
          | _ => exact hsub hp
      · simp only [List.length_cons, Worker.holds] at hu ⊢
        omega
      · simp only [State.events]
        rw [hpend]
        exact hf
      · intro h
        rw [hpend]
        exact hj h
  | got t =>
    cases t with
    | none =>
      cases h
      exact ⟨hp, hu, by simpa [State.pending, State.events] using hf, by simpa [State.pending, State.events] using hj⟩
    | some t =>
      simp only [hok, Bool.false_eq_true, if_false] at h
      cases h
      refine ⟨hp, hu, ?_, ?_⟩
      · simp only [State.events, ← List.append_assoc, called_append _ [_], onDisk_append _ [_]]
        rw [hf]
        simp [called, onDisk, State.pending]
      · intro h
        simp [State.events, ← List.append_assoc] at h
  | finishing stop =>
    cases h
    refine ⟨?_, ?_, ?_, ?_⟩
    · cases stop with
      | false => exact hp
      | true =>
        refine ⟨hp.1, ?_⟩
        cases pc with
        | joinWait r => trivial
        | joinThread r => trivial
        | _ => exact hp.2
    · cases stop <;> simp only [Worker.holds] at hu ⊢ <;> simp <;> omega
    · cases stop <;> simpa [State.pending, State.events] using hf
    · cases stop <;> simpa [State.pending, State.events] using hj
  | exiting =>
    cases h
    refine ⟨⟨hp.1, ?_⟩, hu, ?_, ?_⟩
    · cases pc with
      | put t => exact hp.2
      | joinPut t => exact hp.2
      | _ => trivial
    · simp only [State.events, ← List.append_assoc, called_append _ [_], onDisk_append _ [_]]
      rw [hf]
      simp [called, onDisk, State.pending]
    · intro h
      simp [State.events, ← List.append_assoc] at h
  | dead => cases h

theorem good_step {fails : Task σ → Bool} (hok : ∀ t, fails t = false) (a : Actor) {s : State σ} (hi : Good s) :
    Good (step fails a s) := by
  cases a with
  | caller =>
    simp only [step]
    cases h : callerStep s with
    | none => exact hi
    | some s' => exact good_caller hi h
  | worker =>
    simp only [step]
    cases h : workerStep fails s with
    | none => exact hi
    | some s' => exact good_worker hok hi h

theorem good_run {fails : Task σ → Bool} (hok : ∀ t, fails t = false) :
    ∀ (as : List Actor) (s : State σ), Good s → Good (run fails as s)
  | [], _, h => h
  | a :: as, _, h => good_run hok as _ (good_step hok a h)

end Qtune.Writer
