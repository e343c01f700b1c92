import Verif.Writer.Lemmas
import Mathlib.Order.Basic
import Mathlib.Data.Nat.Find
import Mathlib.Tactic.Set

/-!
# Properties of the asynchronous writer

C56 first in, first out, nothing lost; C57 `join` terminates; C58 failed writes.
-/

namespace Qtune.Writer

variable {σ : Type}

/-- C56.  If no write fails, then in every schedule what is on disk is a prefix of the accepted calls of
`write`, in the same order and with the state of the object at the time of the call; when `join` has
returned and nothing was called since, everything is on disk. -/
theorem writer_fifo (fails : Task σ → Bool) (hok : ∀ t, fails t = false) (obj : σ) (cmds : List (Cmd σ))
    (schedule : List Actor) :
    let s := run fails schedule (init obj cmds)
    onDisk s.events <+: called s.events ∧
      (s.events.getLast? = some .joined → onDisk s.events = called s.events) := by
  intro s
  have hg : Good s := good_run hok schedule _ (good_init obj cmds)
  refine ⟨⟨_, hg.fifo.symm⟩, fun h => ?_⟩
  rw [hg.fifo, hg.joined h, List.append_nil]

/-- The commands that remain, if `join` is the last one. -/
structure Program (obj₀ : σ) (prog : List (Cmd σ)) (s : State σ) : Prop where
  calls : called s.events ++ writesOf s.obj s.cmds = writesOf obj₀ prog
  shape : (∃ rest, s.cmds = rest ++ [.join] ∧ .join ∉ rest ∧
      (match s.pc with
        | .joinPut r => r = true
        | .joinWait r => r = true
        | .joinThread r => r = true
        | _ => s.worker.alive = true)) ∨
    (s.cmds = [] ∧ match s.pc with
      | .ready => s.events.getLast? = some .joined
      | .put _ => False
      | _ => True)

theorem writesOf_join (obj : σ) : writesOf obj [Cmd.join] = [] := rfl

theorem writesOf_append_join (cmds : List (Cmd σ)) : ∀ obj : σ, writesOf obj (cmds ++ [.join]) = writesOf obj cmds := by
  induction cmds with
  | nil => intro obj; rfl
  | cons c cmds ih =>
    intro obj
    cases c <;> simp [writesOf, ih]

theorem program_caller {obj₀ : σ} {prog : List (Cmd σ)} {s s' : State σ} (hp : Program obj₀ prog s)
    (h : callerStep s = some s') : Program obj₀ prog s' := by
  obtain ⟨obj, cmds, pc, queue, unf, worker, past, log⟩ := s
  obtain ⟨hc, hs⟩ := hp
  simp only [callerStep] at h
  simp only [State.events] at hc hs
  cases pc with
  | ready =>
    rcases hs with ⟨rest, rfl, hj, ha⟩ | ⟨rfl, -⟩
    · simp only at ha
      cases rest with
      | nil =>
        simp only [List.nil_append] at h hc
        cases h
        refine ⟨hc, Or.inr ⟨rfl, ?_⟩⟩
        simp only [startJoin, ha, if_true]
      | cons c rest =>
        have hj' : Cmd.join ∉ rest := fun h => hj (by simp [h])
        cases c with
        | mutate v =>
          cases h
          exact ⟨hc, Or.inl ⟨rest, rfl, hj', ha⟩⟩
        | write target =>
          simp only [List.cons_append, ha, if_true] at h
          cases h
          refine ⟨?_, Or.inl ⟨rest, rfl, hj', ha⟩⟩
          simp only [State.events, ← List.append_assoc, called_append _ [_]]
          rw [← hc]
          simp [called, writesOf]
        | join => exact absurd (by simp) hj
        | restart =>
          cases h
          refine ⟨hc, Or.inl ⟨rest, rfl, hj', ?_⟩⟩
          simp only [startJoin, ha, if_true]
    · cases h
  | put t =>
    cases h
    rcases hs with ⟨rest, rfl, hj, ha⟩ | ⟨rfl, hf⟩
    · exact ⟨hc, Or.inl ⟨rest, rfl, hj, ha⟩⟩
    · exact hf.elim
  | joinPut r =>
    cases h
    rcases hs with ⟨rest, rfl, hj, ha⟩ | ⟨rfl, hf⟩
    · exact ⟨hc, Or.inl ⟨rest, rfl, hj, ha⟩⟩
    · exact ⟨hc, Or.inr ⟨rfl, trivial⟩⟩
  | joinWait r =>
    simp only at h
    split at h
    · cases h
      rcases hs with ⟨rest, rfl, hj, ha⟩ | ⟨rfl, hf⟩
      · exact ⟨hc, Or.inl ⟨rest, rfl, hj, ha⟩⟩
      · exact ⟨hc, Or.inr ⟨rfl, trivial⟩⟩
    · cases h
  | joinThread r =>
    simp only at h
    split at h
    · cases h
    · rcases hs with ⟨rest, rfl, hj, ha⟩ | ⟨rfl, hf⟩
      · simp only at ha
        subst ha
        simp only [if_true] at h
        cases h
        refine ⟨?_, Or.inl ⟨rest, rfl, hj, rfl⟩⟩
        simp only [State.events, List.append_nil, called_append _ [_]]
        rw [← hc]
        simp [called]
      · split at h
        · cases h
          refine ⟨?_, Or.inr ⟨rfl, by simp [State.events]⟩⟩
          simp only [State.events, List.append_nil, called_append _ [_]]
          rw [← hc]
          simp [called]
        · cases h
          refine ⟨?_, Or.inr ⟨rfl, by simp [State.events]⟩⟩
          simp only [State.events, ← List.append_assoc, called_append _ [_]]
          rw [← hc]
          simp [called]

theorem program_worker {fails : Task σ → Bool} (hok : ∀ t, fails t = false) {obj₀ : σ} {prog : List (Cmd σ)}
    {s s' : State σ} (hg : Good s) (hp : Program obj₀ prog s) (h : workerStep fails s = some s') :
    Program obj₀ prog s' := by
  obtain ⟨obj, cmds, pc, queue, unf, worker, past, log⟩ := s
  obtain ⟨hc, hs⟩ := hp
  have hph := hg.phase
  simp only [workerStep] at h
  simp only [State.events] at hc hs
  -- the worker is alive afterwards, or the caller is in `join`
  cases worker with
  | idle =>
    simp only at h
    cases queue with
    | nil => cases h
    | cons t queue =>
      cases h
      refine ⟨hc, ?_⟩
      rcases hs with ⟨rest, rfl, hj, ha⟩ | ⟨rfl, hf⟩
      · refine Or.inl ⟨rest, rfl, hj, ?_⟩
        cases pc <;> simp_all [Worker.alive]
      · exact Or.inr ⟨rfl, hf⟩
  | got t =>
    cases t with
    | none =>
      cases h
      refine ⟨hc, ?_⟩
      rcases hs with ⟨rest, rfl, hj, ha⟩ | ⟨rfl, hf⟩
      · refine Or.inl ⟨rest, rfl, hj, ?_⟩
        cases pc <;> simp_all [Worker.alive]
      · exact Or.inr ⟨rfl, hf⟩
    | some t =>
      simp only [hok, Bool.false_eq_true, if_false] at h
      cases h
      refine ⟨?_, ?_⟩
      · simp only [State.events, ← List.append_assoc, called_append _ [_]]
        rw [← hc]
        simp [called]
      · rcases hs with ⟨rest, rfl, hj, ha⟩ | ⟨rfl, hf⟩
        · refine Or.inl ⟨rest, rfl, hj, ?_⟩
          cases pc <;> simp_all [Worker.alive]
        · refine Or.inr ⟨rfl, ?_⟩
          cases pc with
          | ready =>
            have := hg.joined hf
            simp [State.pending] at this
          | put t => exact hf
          | _ => trivial
  | finishing stop =>
    cases h
    refine ⟨hc, ?_⟩
    rcases hs with ⟨rest, rfl, hj, ha⟩ | ⟨rfl, hf⟩
    · refine Or.inl ⟨rest, rfl, hj, ?_⟩
      cases stop <;> cases pc <;> simp_all [Worker.alive]
    · exact Or.inr ⟨rfl, hf⟩
  | exiting =>
    cases h
    refine ⟨?_, ?_⟩
    · simp only [State.events, ← List.append_assoc, called_append _ [_]]
      rw [← hc]
      simp [called]
    · obtain ⟨-, hpc⟩ := hph
      rcases hs with ⟨rest, rfl, hj, ha⟩ | ⟨rfl, hf⟩
      · refine Or.inl ⟨rest, rfl, hj, ?_⟩
        cases pc with
        | joinWait r => exact ha
        | joinThread r => exact ha
        | _ => exact hpc.elim
      · refine Or.inr ⟨rfl, ?_⟩
        cases pc with
        | joinWait r => trivial
        | joinThread r => trivial
        | _ => exact hpc.elim
  | dead => cases h

/-- C56, for a whole program: if no write fails and the program calls `join` only in the end, then every call
of `write` is accepted, and when the program has finished, exactly the objects that it wrote are on disk,
in the order of the calls and with their state at the time of the call.  The program may change the object
between the calls and restart the writer. -/
theorem writer_complete (fails : Task σ → Bool) (hok : ∀ t, fails t = false) (obj : σ) (cmds : List (Cmd σ))
    (hcmds : .join ∉ cmds) (schedule : List Actor)
    (hfin : (run fails schedule (init obj (cmds ++ [.join]))).finished) :
    onDisk (run fails schedule (init obj (cmds ++ [.join]))).events = writesOf obj cmds := by
  have key : ∀ (as : List Actor) (s : State σ), Good s → Program obj (cmds ++ [.join]) s →
      Program obj (cmds ++ [.join]) (run fails as s) := by
    intro as
    induction as with
    | nil => exact fun s _ h => h
    | cons a as ih =>
      intro s hg hp
      refine ih _ (good_step hok a hg) ?_
      cases a with
      | caller =>
        simp only [step]
        cases h : callerStep s with
        | none => exact hp
        | some s' => exact program_caller hp h
      | worker =>
        simp only [step]
        cases h : workerStep fails s with
        | none => exact hp
        | some s' => exact program_worker hok hg hp h
  have hp := key schedule _ (good_init obj _) ⟨rfl, Or.inl ⟨cmds, rfl, hcmds, rfl⟩⟩
  have hg := good_run hok schedule _ (good_init obj (cmds ++ [Cmd.join]))
  revert hfin hp hg
  generalize run fails schedule (init obj (cmds ++ [.join])) = s
  rintro ⟨h1, h2⟩ hp hg
  have hc := hp.calls
  rw [h1] at hc
  simp only [writesOf, List.append_nil, writesOf_append_join] at hc
  rw [← hc, hg.fifo]
  have hl : s.events.getLast? = some .joined := by
    rcases hp.shape with ⟨rest, h3, -⟩ | ⟨-, h3⟩
    · rw [h1] at h3
      simp at h3
    · cases hpc : s.pc with
      | ready => rw [hpc] at h3; exact h3
      | _ => rw [hpc] at h2; exact h2.elim
  rw [hg.joined hl, List.append_nil]

/-- A program that changes the object between two calls, restarts the writer, and joins: with this schedule
it finishes, and three states are on disk. -/
example : ∃ schedule,
    let s := run (fun _ => false) schedule (init 1 [.write "a", .mutate 2, .write "b", .restart, .write "c", .join])
    s.finished ∧ onDisk s.events = [⟨"a", 1⟩, ⟨"b", 2⟩, ⟨"c", 2⟩] :=
  ⟨List.replicate 8 .caller ++ List.replicate 12 .worker ++ List.replicate 8 .caller ++
    List.replicate 12 .worker ++ List.replicate 4 .caller, ⟨rfl, trivial⟩, rfl⟩

/-- No actor can make a step. -/
def Stuck (fails : Task σ → Bool) (s : State σ) : Prop := callerStep s = none ∧ workerStep fails s = none

/-- Steps that remain at most. -/
def cost : List (Cmd σ) → Nat
  | [] => 0
  | _ :: cmds => 20 + cost cmds

def Pc.cost : Pc σ → Nat
  | .ready => 0
  | .put _ => 12
  | .joinPut _ => 12
  | .joinWait _ => 2
  | .joinThread _ => 1

def Worker.cost : Worker σ → Nat
  | .idle => 0
  | .got _ => 4
  | .finishing _ => 3
  | .exiting => 1
  | .dead => 0

def State.cost (s : State σ) : Nat :=
  Writer.cost s.cmds + s.pc.cost + 5 * s.queue.length + s.worker.cost

theorem caller_cost {s s' : State σ} (h : callerStep s = some s') : s'.cost < s.cost := by
  obtain ⟨obj, cmds, pc, queue, unf, worker, past, log⟩ := s
  simp only [callerStep] at h
  cases pc with
  | ready =>
    cases cmds with
    | nil => cases h
    | cons c cmds =>
      cases c with
      | mutate v => cases h; simp [State.cost, cost]
      | write target =>
        simp only at h
        split at h <;> cases h <;> simp [State.cost, cost, Pc.cost] <;> omega
      | join =>
        cases h
        simp only [State.cost, cost, startJoin]
        split <;> simp [Pc.cost] <;> omega
      | restart =>
        cases h
        simp only [State.cost, cost, startJoin]
        split <;> simp [Pc.cost] <;> omega
  | put t => cases h; simp [State.cost, Pc.cost]; omega
  | joinPut r => cases h; simp [State.cost, Pc.cost]; omega
  | joinWait r =>
    simp only at h
    split at h <;> cases h
    simp [State.cost, Pc.cost]
  | joinThread r =>
    simp only at h
    split at h
    · cases h
    · split at h <;> cases h <;> simp [State.cost, Pc.cost, Worker.cost] <;> omega

theorem worker_cost {fails : Task σ → Bool} {s s' : State σ} (h : workerStep fails s = some s') :
    s'.cost < s.cost := by
  obtain ⟨obj, cmds, pc, queue, unf, worker, past, log⟩ := s
  simp only [workerStep] at h
  cases worker with
  | idle =>
    simp only at h
    cases queue with
    | nil => cases h
    | cons t queue => cases h; simp [State.cost, Worker.cost]; omega
  | got t =>
    cases t with
    | none => cases h; simp [State.cost, Worker.cost]
    | some t =>
      simp only at h
      split at h <;> cases h <;> simp [State.cost, Worker.cost]
  | finishing stop => cases h; cases stop <;> simp [State.cost, Worker.cost]
  | exiting => cases h; simp [State.cost, Worker.cost]
  | dead => cases h

/-- Without failures some actor can make a step until the program has finished. -/
theorem progress {fails : Task σ → Bool} {s : State σ} (hg : Good s) (h : Stuck fails s) : s.finished := by
  obtain ⟨obj, cmds, pc, queue, unf, worker, past, log⟩ := s
  obtain ⟨hc, hw⟩ := h
  obtain ⟨hp, hu, -, -⟩ := hg
  simp only [callerStep] at hc
  simp only [workerStep] at hw
  simp only at hu
  cases pc with
  | ready =>
    cases cmds with
    | nil => exact ⟨rfl, trivial⟩
    | cons c cmds =>
      cases c with
      | write target => simp only at hc; split at hc <;> cases hc
      | _ => cases hc
  | put t => cases hc
  | joinPut r => cases hc
  | joinWait r =>
    simp only at hc
    split at hc
    · cases hc
    · rename_i h0
      cases worker with
      | idle =>
        obtain ⟨q, hq, -⟩ := hp
        simp only at hq hw
        rw [hq] at hw
        cases q <;> cases hw
      | got t => cases t with
        | none => cases hw
        | some t => simp only at hw; split at hw <;> cases hw
      | finishing b => cases hw
      | exiting => cases hw
      | dead =>
        have hq : queue = [] := hp.1
        subst hq
        simp [Worker.holds] at hu
        exact absurd hu h0
  | joinThread r =>
    simp only at hc
    split at hc
    · rename_i ha
      cases worker with
      | idle => exact hp.elim
      | got t => cases t with
        | none => exact hp.2.elim
        | some t => exact hp.elim
      | finishing b => cases b with
        | false => exact hp.elim
        | true => exact hp.2.elim
      | exiting => cases hw
      | dead => simp [Worker.alive] at ha
    · split at hc <;> cases hc

/-- Every fair schedule comes to a state in which no actor can make a step. -/
theorem fair_stuck (fails : Task σ → Bool) (obj : σ) (cmds : List (Cmd σ))
    (schedule : Nat → Actor) (hfair : ∀ a n, ∃ m, n ≤ m ∧ schedule m = a) :
    ∃ n, Stuck fails (run fails ((List.range n).map schedule) (init obj cmds)) := by
  have hsucc : ∀ n s, run fails ((List.range (n + 1)).map schedule) s =
      step fails (schedule n) (run fails ((List.range n).map schedule) s) := by
    intro n s
    have happ : ∀ (as bs : List Actor) (s : State σ), run fails (as ++ bs) s = run fails bs (run fails as s) := by
      intro as
      induction as with
      | nil => intro bs s; rfl
      | cons a as ih => intro bs s; exact ih bs _
    rw [List.range_succ, List.map_append, happ]
    rfl
  set st : Nat → State σ := fun n => run fails ((List.range n).map schedule) (init obj cmds) with hst
  have key : ∀ c n, (st n).cost = c → ∃ m, Stuck fails (st m) := by
    intro c
    induction c using Nat.strongRecOn with
    | ind c ih =>
      intro n hc
      by_cases hs : Stuck fails (st n)
      · exact ⟨n, hs⟩
      · -- the first later moment at which the state changes
        have hex : ∃ a, step fails a (st n) ≠ st n ∧ (step fails a (st n)).cost < (st n).cost := by
          by_cases h1 : callerStep (st n) = none
          · by_cases h2 : workerStep fails (st n) = none
            · exact absurd ⟨h1, h2⟩ hs
            · obtain ⟨s', h'⟩ := Option.ne_none_iff_exists'.1 h2
              refine ⟨.worker, ?_, ?_⟩
              · intro h
                have := worker_cost h'
                simp only [step, h', Option.getD_some] at h
                rw [h] at this
                omega
              · simp only [step, h', Option.getD_some]
                exact worker_cost h'
          · obtain ⟨s', h'⟩ := Option.ne_none_iff_exists'.1 h1
            refine ⟨.caller, ?_, ?_⟩
            · intro h
              have := caller_cost h'
              simp only [step, h', Option.getD_some] at h
              rw [h] at this
              omega
            · simp only [step, h', Option.getD_some]
              exact caller_cost h'
        obtain ⟨a, hne, -⟩ := hex
        obtain ⟨m, hm, hma⟩ := hfair a n
        have hchange : ∃ k, n ≤ k ∧ st (k + 1) ≠ st n := by
          by_contra hcon
          push Not at hcon
          have hmst : st m = st n := by
            rcases Nat.lt_or_ge n m with h | h
            · have := hcon (m - 1) (by omega)
              rwa [show m - 1 + 1 = m by omega] at this
            · rw [show m = n by omega]
          have := hcon m hm
          simp only [hst] at this hmst
          rw [hsucc, hmst, hma] at this
          exact hne this
        classical
        have hmin := Nat.find_spec hchange
        have hless := fun k => Nat.find_min hchange (m := k)
        set k := Nat.find hchange with hk
        have hkst : st k = st n := by
          rcases Nat.lt_or_ge n k with h | h
          · have := hless (k - 1) (by omega)
            push Not at this
            have := this (by omega)
            rwa [show k - 1 + 1 = k by omega] at this
          · rw [show k = n from le_antisymm h hmin.1]
        have hstep : st (k + 1) = step fails (schedule k) (st n) := by
          rw [← hkst]
          exact hsucc k _
        refine ih (st (k + 1)).cost ?_ (k + 1) rfl
        rw [← hc, hstep]
        rw [hstep] at hmin
        cases hsk : schedule k with
        | caller =>
          rw [hsk] at hmin
          cases h' : callerStep (st n) with
          | none => exact absurd (by simp only [step, h', Option.getD_none]) hmin.2
          | some s' =>
            simp only [step, h', Option.getD_some]
            exact caller_cost h'
        | worker =>
          rw [hsk] at hmin
          cases h' : workerStep fails (st n) with
          | none => exact absurd (by simp only [step, h', Option.getD_none]) hmin.2
          | some s' =>
            simp only [step, h', Option.getD_some]
            exact worker_cost h'
  exact key _ 0 rfl

/-- C58.  In every schedule and for every set of failing writes: the accepted calls since the last restart
are those that were executed, in order, and a rest; if the worker has died, all accepted calls happened
before, so only calls before that are lost; a call that finds the worker dead is refused, and it changes
neither the queue nor the disk.  Nothing that failed is on disk, and after a failed write nothing is executed until
the next restart. -/
theorem failed_writes (fails : Task σ → Bool) (obj : σ) (cmds : List (Cmd σ)) (schedule : List Actor) :
    let s := run fails schedule (init obj cmds)
    (executed s.log <+: called s.log) ∧
    (∀ before after, s.log = before ++ .died :: after → called before = called s.log) ∧
    (∀ target rest, s.pc = .ready → s.cmds = .write target :: rest → s.worker.alive = false →
      ∃ s', callerStep s = some s' ∧ s'.log = s.log ++ [.refused] ∧ s'.queue = s.queue ∧ s'.pc = .ready ∧
        called s'.events = called s.events) ∧
    (∀ t ∈ onDisk s.events, fails t = false) ∧
    (∀ before t after, s.log = before ++ .failed t :: after → fails t = true ∧ executed after = []) := by
  intro s
  have hi : Inv s := inv_run fails schedule _ (inv_init obj cmds)
  have hf : Failing fails s := failing_run fails schedule _ (failing_init fails obj cmds)
  refine ⟨⟨_, hi.conserve.symm⟩, ?_, ?_, hf.disk, hf.failed⟩
  · intro before after h
    have h1 := hi.died before after h
    rw [h, called_append, show (Event.died :: after) = [Event.died] ++ after from rfl, called_append, h1]
    simp [called]
  · intro target rest hpc hcmds ha
    refine ⟨{ s with cmds := rest, log := s.log ++ [.refused] }, ?_, rfl, rfl, hpc, ?_⟩
    · simp only [callerStep, hpc, hcmds, ha]
      rfl
    · simp only [State.events, ← List.append_assoc, called_append _ [_]]
      simp [called]

/-- A failing write: the second call is lost, the third is refused. -/
example : ∃ schedule,
    let s := run (fun t => t.target == "bad") schedule (init 1 [.write "bad", .write "lost", .write "refused"])
    s.log = [.called ⟨"bad", 1⟩, .called ⟨"lost", 1⟩, .failed ⟨"bad", 1⟩, .died, .refused] :=
  ⟨List.replicate 4 .caller ++ List.replicate 4 .worker ++ List.replicate 1 .caller, rfl⟩

end Qtune.Writer
