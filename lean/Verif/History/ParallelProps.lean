import Mathlib.Tactic.SplitIfs
import Mathlib.Data.List.Basic
import Verif.History.ParallelModel

/-!
# C167: reading files in threads is reading them one after the other
-/

namespace Qtune.History.Parallel

variable {F β σ : Type}

/-! ## Specification -/

/-- Reading the files one after the other, and doing the body of the loop for each of them. -/
def oneByOne (read : F → Except PyErr β) (use : σ → F → β → σ × Except PyErr Unit) : List F → σ → σ × Except PyErr Unit
  | [], v => (v, .ok ())
  | f :: fs, v =>
    match read f with
    | .error e => (v, .error e)
    | .ok b =>
      match use v f b with
      | (v', .error e) => (v', .error e)
      | (v', .ok ()) => oneByOne read use fs v'

/-! ## Lemmas -/

/-- What holds in every reachable state. -/
structure Inv (p : Prog F β σ) (v : σ) (s : State β σ) : Prop where
  read : ∀ i r, s.done.lookup i = some r → ∃ f, p.files[i]? = some f ∧ r = p.read f
  runs : ∀ i ∈ s.running, i < p.files.length
  queued : ∀ i ∈ s.queue, i < p.files.length
  bound : s.running.length ≤ p.workers
  open_ : s.outcome = none → oneByOne p.read p.use (p.files.drop s.next) s.value = oneByOne p.read p.use p.files v ∧
    s.next ≤ p.files.length ∧
    ∀ i < p.files.length, i ∈ s.queue ∨ i ∈ s.running ∨ ∃ r, s.done.lookup i = some r
  closed : ∀ r, s.outcome = some r → oneByOne p.read p.use p.files v = (s.value, r)
  leaves : s.left = true → s.outcome ≠ none ∧ s.queue = [] ∧ s.running = []

theorem inv_init (p : Prog F β σ) (v : σ) : Inv p v (init p v) where
  read := by intro i r h; simp [init] at h
  runs := by intro i h; simp [init] at h
  queued := by intro i h; simpa [init] using h
  bound := by simp [init]
  open_ := by
    intro _
    refine ⟨by simp [init], by simp [init], fun i hi => .inl (by simpa [init] using hi)⟩
  closed := by intro r h; simp [init] at h
  leaves := by intro h; simp [init] at h

theorem lookup_cons_some {i j : Nat} {r x : Except PyErr β} {l : List (Nat × Except PyErr β)}
    (h : ((j, x) :: l).lookup i = some r) : (i = j ∧ r = x) ∨ l.lookup i = some r := by
  rw [List.lookup_cons] at h
  by_cases hij : i = j
  · subst hij
    simp at h
    exact .inl ⟨rfl, h.symm⟩
  · rw [show (i == j) = false by simpa using hij] at h
    exact .inr h

theorem inv_step {p : Prog F β σ} {v : σ} {s : State β σ} (h : Inv p v s) (a : Act) : Inv p v (step p s a) := by
  cases a with
  | take =>
    dsimp only [step]
    match hq : s.queue with
    | [] => exact h
    | i :: q =>
      dsimp only
      split_ifs with hw
      · refine ⟨h.read, ?_, ?_, ?_, ?_, h.closed, ?_⟩
        · intro j hj
          rcases List.mem_cons.1 hj with rfl | hj
          · exact h.queued _ (by rw [hq]; simp)
          · exact h.runs j hj
        · intro j hj
          exact h.queued j (by rw [hq]; exact List.mem_cons_of_mem _ hj)
        · simp only [List.length_cons]; omega
        · intro ho
          obtain ⟨h1, h2, h3⟩ := h.open_ ho
          refine ⟨h1, h2, fun j hj => ?_⟩
          rcases h3 j hj with h4 | h4 | h4
          · rw [hq] at h4
            rcases List.mem_cons.1 h4 with rfl | h4
            · exact .inr (.inl (by simp))
            · exact .inl h4
          · exact .inr (.inl (by simp [h4]))
          · exact .inr (.inr h4)
        · intro hl
          have := h.leaves hl
          rw [hq] at this
          simp at this
      · exact h
  | finish i =>
    dsimp only [step]
    match hf : p.files[i]? with
    | none => exact h
    | some f =>
      dsimp only
      split_ifs with hi
      · refine ⟨?_, ?_, h.queued, ?_, ?_, h.closed, ?_⟩
        · intro j r hj
          rcases lookup_cons_some hj with ⟨rfl, rfl⟩ | hj
          · exact ⟨f, hf, rfl⟩
          · exact h.read j r hj
        · intro j hj
          exact h.runs j (List.mem_of_mem_erase hj)
        · exact Nat.le_trans List.length_erase_le h.bound
        · intro ho
          obtain ⟨h1, h2, h3⟩ := h.open_ ho
          refine ⟨h1, h2, fun j hj => ?_⟩
          by_cases hij : j = i
          · subst hij
            exact .inr (.inr ⟨p.read f, by simp⟩)
          · rcases h3 j hj with h4 | h4 | ⟨r, h4⟩
            · exact .inl h4
            · exact .inr (.inl ((List.mem_erase_of_ne hij).2 h4))
            · refine .inr (.inr ⟨r, ?_⟩)
              show ((i, p.read f) :: s.done).lookup j = _
              rw [List.lookup_cons, show (j == i) = false by simpa using hij]
              exact h4
        · intro hl
          obtain ⟨-, -, h5⟩ := h.leaves hl
          rw [h5] at hi
          simp at hi
      · exact h
  | caller =>
    show Inv p v (callerStep p s)
    unfold callerStep
    match ho : s.outcome with
    | some r =>
      dsimp only
      split_ifs with hq
      · exact ⟨h.read, h.runs, h.queued, h.bound, fun hn => by simp at hn,
          fun r' hr' => h.closed r' (ho.trans hr'), fun _ => ⟨by simp, hq⟩⟩
      · exact h
    | none =>
      obtain ⟨h1, h2, h3⟩ := h.open_ ho
      have hl : s.left ≠ true := fun hl => (h.leaves hl).1 ho
      dsimp only
      match hf : p.files[s.next]? with
      | none =>
        refine ⟨h.read, h.runs, h.queued, h.bound, fun hn => by simp at hn, ?_, fun hl' => absurd hl' hl⟩
        intro r hr
        simp only [Option.some.injEq] at hr
        subst hr
        rw [List.drop_eq_nil_of_le (List.getElem?_eq_none_iff.1 hf)] at h1
        exact h1.symm
      | some f =>
        dsimp only
        have hd : p.files.drop s.next = f :: p.files.drop (s.next + 1) := by
          obtain ⟨hlt, rfl⟩ := List.getElem?_eq_some_iff.1 hf
          exact List.drop_eq_getElem_cons hlt
        match hk : s.done.lookup s.next with
        | none => exact h
        | some (.error e) =>
          obtain ⟨f', hf', hr⟩ := h.read _ _ hk
          rw [hf] at hf'
          cases hf'
          refine ⟨h.read, h.runs, fun i hi => by simp at hi, h.bound, fun hn => by simp at hn, ?_,
            fun hl' => absurd hl' hl⟩
          intro r hr'
          simp only [Option.some.injEq] at hr'
          subst hr'
          rw [← h1, hd]
          simp only [oneByOne, ← hr]
        | some (.ok b) =>
          obtain ⟨f', hf', hr⟩ := h.read _ _ hk
          rw [hf] at hf'
          cases hf'
          dsimp only
          match hu : p.use s.value f b with
          | (v', .error e) =>
            refine ⟨h.read, h.runs, h.queued, h.bound, fun hn => by simp at hn, ?_, fun hl' => absurd hl' hl⟩
            intro r hr'
            simp only [Option.some.injEq] at hr'
            subst hr'
            rw [← h1, hd]
            simp only [oneByOne, ← hr, hu]
          | (v', .ok ()) =>
            refine ⟨h.read, h.runs, h.queued, h.bound, fun _ => ⟨?_, ?_, h3⟩, ?_, fun hl' => absurd hl' hl⟩
            · rw [← h1, hd]
              simp only [oneByOne, ← hr, hu]
            · have := (List.getElem?_eq_some_iff.1 hf).1
              show s.next + 1 ≤ _
              omega
            · intro r hr'
              exact absurd hr' (by simp)

theorem inv_run {p : Prog F β σ} {v : σ} : ∀ (as : List Act) {s : State β σ}, Inv p v s → Inv p v (run p s as)
  | [], _, h => h
  | a :: as, _, h => inv_run as (inv_step h a)

/-- How many steps that change something are left at most. -/
def remaining (p : Prog F β σ) (s : State β σ) : Nat :=
  2 * s.queue.length + s.running.length + (p.files.length - s.next) + (if s.outcome = none then 1 else 0) +
    (if s.left then 0 else 1)

theorem step_remaining {p : Prog F β σ} {s : State β σ} (a : Act) :
    step p s a = s ∨ remaining p (step p s a) < remaining p s := by
  cases a with
  | take =>
    dsimp only [step]
    match hq : s.queue with
    | [] => exact .inl rfl
    | i :: q =>
      dsimp only
      split_ifs with hw
      · right
        unfold remaining
        simp only [hq, List.length_cons]
        omega
      · exact .inl rfl
  | finish i =>
    dsimp only [step]
    match hf : p.files[i]? with
    | none => exact .inl rfl
    | some f =>
      dsimp only
      split_ifs with hi
      · right
        unfold remaining
        have := List.length_erase_of_mem hi
        have hpos : 0 < s.running.length := List.length_pos_of_mem hi
        simp only [this]
        omega
      · exact .inl rfl
  | caller =>
    show callerStep p s = s ∨ remaining p (callerStep p s) < remaining p s
    unfold callerStep
    match ho : s.outcome with
    | some r =>
      dsimp only
      split_ifs with hq
      · by_cases hl : s.left = true
        · left
          cases s
          simp only at hl ho
          subst hl
          subst ho
          rfl
        · right
          unfold remaining
          simp [hl, ho]
      · exact .inl rfl
    | none =>
      dsimp only
      match hf : p.files[s.next]? with
      | none =>
        right
        unfold remaining
        simp [ho]
      | some f =>
        have hlt := (List.getElem?_eq_some_iff.1 hf).1
        dsimp only
        match hk : s.done.lookup s.next with
        | none => exact .inl rfl
        | some (.error e) =>
          right
          unfold remaining
          simp only [ho, List.length_nil]
          simp
          omega
        | some (.ok b) =>
          dsimp only
          match hu : p.use s.value f b with
          | (v', .error e) =>
            right
            unfold remaining
            simp only [ho]
            simp
          | (v', .ok ()) =>
            right
            unfold remaining
            simp only [ho]
            omega

theorem can_go_on {p : Prog F β σ} {v : σ} {s : State β σ} (hw : 0 < p.workers) (h : Inv p v s) (hl : s.left = false) :
    ∃ a, step p s a ≠ s := by
  by_cases hr : s.running = []
  · by_cases hq : s.queue = []
    · refine ⟨.caller, ?_⟩
      show callerStep p s ≠ s
      unfold callerStep
      match ho : s.outcome with
      | some r =>
        dsimp only
        rw [if_pos ⟨hq, hr⟩]
        intro he
        have := congrArg State.left he
        simp [hl] at this
      | none =>
        dsimp only
        obtain ⟨-, -, h3⟩ := h.open_ ho
        match hf : p.files[s.next]? with
        | none =>
          intro he
          have := congrArg State.outcome he
          simp [ho] at this
        | some f =>
          dsimp only
          rcases h3 s.next (List.getElem?_eq_some_iff.1 hf).1 with h4 | h4 | ⟨r, h4⟩
          · rw [hq] at h4; simp at h4
          · rw [hr] at h4; simp at h4
          · rw [h4]
            match r with
            | .error e =>
              intro he
              have := congrArg State.outcome he
              simp [ho] at this
            | .ok b =>
              dsimp only
              match p.use s.value f b with
              | (v', .error e) =>
                intro he
                have := congrArg State.outcome he
                simp [ho] at this
              | (v', .ok ()) =>
                intro he
                have := congrArg State.next he
                simp at this
    · refine ⟨.take, ?_⟩
      obtain ⟨i, q, hiq⟩ := List.exists_cons_of_ne_nil hq
      dsimp only [step]
      rw [hiq]
      dsimp only
      rw [if_pos (by rw [hr]; exact hw)]
      intro he
      have := congrArg State.running he
      simp [hr] at this
  · obtain ⟨i, q, hiq⟩ := List.exists_cons_of_ne_nil hr
    have hi : i ∈ s.running := by rw [hiq]; simp
    refine ⟨.finish i, ?_⟩
    dsimp only [step]
    rw [List.getElem?_eq_getElem (h.runs i hi)]
    dsimp only
    rw [if_pos hi]
    intro he
    have := congrArg (fun t => t.running.length) he
    have h2 := List.length_erase_of_mem hi
    have hpos : 0 < s.running.length := List.length_pos_of_mem hi
    simp only [h2] at this
    omega

theorem finishes {p : Prog F β σ} {v : σ} (hw : 0 < p.workers) : ∀ (n : Nat) (s : State β σ), Inv p v s → remaining p s = n →
    ∃ as, (run p s as).left = true := by
  intro n
  induction n using Nat.strongRecOn with
  | ind n ih =>
    intro s hs hn
    by_cases hl : s.left = true
    · exact ⟨[], hl⟩
    · obtain ⟨a, ha⟩ := can_go_on hw hs (by simpa using hl)
      have := (step_remaining (p := p) (s := s) a).resolve_left ha
      obtain ⟨as, has⟩ := ih _ (hn ▸ this) _ (inv_step hs a) rfl
      exact ⟨a :: as, has⟩

/-! ## The property -/

/-- C167, the result does not depend on the schedule: however the threads are scheduled and how many there are, when the loop over
`read_iter` has ended, it has ended as if the files had been read one after the other, with the same value and the same
exception; and never are more files read at once than there are threads. -/
theorem parallel_reading (p : Prog F β σ) (v : σ) (as : List Act) :
    (∀ r, (run p (init p v) as).outcome = some r → ((run p (init p v) as).value, r) = oneByOne p.read p.use p.files v) ∧
    (run p (init p v) as).running.length ≤ p.workers :=
  ⟨fun r hr => ((inv_run as (inv_init p v)).closed r hr).symm, (inv_run as (inv_init p v)).bound⟩

/-- C167, it always ends: from every state that can be reached the `with` block can be left; while it has not been left, some
thread can do something; and every step that changes anything is one of finitely many, so that no schedule goes on forever. -/
theorem parallel_reading_ends (p : Prog F β σ) (v : σ) (hw : 0 < p.workers) (as : List Act) :
    (∃ bs, (run p (init p v) (as ++ bs)).left = true) ∧
    ((run p (init p v) as).left = false → ∃ a, run p (init p v) (as ++ [a]) ≠ run p (init p v) as) ∧
    ∃ bound : State β σ → Nat, ∀ s a, step p s a = s ∨ bound (step p s a) < bound s := by
  have hr : ∀ bs, run p (init p v) (as ++ bs) = run p (run p (init p v) as) bs := fun bs => by
    unfold run; rw [List.foldl_append]
  refine ⟨?_, fun hl => ?_, remaining p, fun s a => step_remaining a⟩
  · obtain ⟨bs, hbs⟩ := finishes hw _ _ (inv_run as (inv_init p v)) rfl
    exact ⟨bs, by rw [hr]; exact hbs⟩
  · obtain ⟨a, ha⟩ := can_go_on hw (inv_run as (inv_init p v)) hl
    exact ⟨a, by rw [hr]; exact ha⟩

/-- Two files and two threads, of which the second is faster. -/
example : ∃ s, s = run (⟨["a", "b"], fun f => .ok f.length, fun v _ b => (v ++ [b], .ok ()), 2⟩ : Prog String Nat (List Nat))
    (init ⟨["a", "b"], fun f => .ok f.length, fun v _ b => (v ++ [b], .ok ()), 2⟩ [])
    [.take, .take, .finish 1, .caller, .finish 0, .caller, .caller, .caller, .caller] ∧
    s.left = true ∧ s.value = [1, 1] ∧ s.outcome = some (.ok ()) := ⟨_, rfl, rfl, rfl, rfl⟩

theorem oneByOne_directory {S γ κ ρ π : Type} [DecidableEq γ] (view : S → View γ κ ρ) (full : String → π)
    (entries : List (String × Entry S)) (w : Nat) : ∀ (l : List (String × Entry S)) (h : Hist γ κ ρ π),
    (∀ h', loadEntries view full h l = .ok h' ↔
      oneByOne (directoryProg view full entries w).read (directoryProg view full entries w).use l h = (h', .ok ())) ∧
    (∀ e, loadEntries view full h l = .error e ↔
      (oneByOne (directoryProg view full entries w).read (directoryProg view full entries w).use l h).2 = .error e)
  | [], h => by
    constructor
    · intro h'; simp [loadEntries, oneByOne]
    · intro e; simp [loadEntries, oneByOne]
  | (n, .directory) :: l, h => by
    constructor
    · intro h'; simp [loadEntries, oneByOne, directoryProg]
    · intro e; simp [loadEntries, oneByOne, directoryProg]
  | (n, .file a) :: l, h => by
    have ih := oneByOne_directory view full entries w l
    unfold loadEntries oneByOne
    cases ha : append h (view a) (full n) with
    | error err => simp [directoryProg, ha]
    | ok h1 => simpa [directoryProg, ha] using ih h1

/-- C167 for a history: however the threads of `History(directory)` are scheduled, the history is the one of `load_directory` in
C140, and it fails if and only if that fails, with the same exception. -/
theorem parallel_directory {S γ κ ρ π : Type} [DecidableEq γ] (view : S → View γ κ ρ) (full : String → π)
    (entries : List (String × Entry S)) (w : Nat) (as : List Act) (s : State S (Hist γ κ ρ π))
    (hs : s = run (directoryProg view full entries w) (init (directoryProg view full entries w) Hist.empty) as) :
    (s.outcome = some (.ok ()) → loadDirectory view full entries = .ok s.value) ∧
    (∀ e, s.outcome = some (.error e) → loadDirectory view full entries = .error e) := by
  have h := (parallel_reading (directoryProg view full entries w) Hist.empty as).1
  rw [← hs] at h
  have h2 := oneByOne_directory view full entries w (entries.mergeSort fun a b => decide (a.1 ≤ b.1)) Hist.empty
  refine ⟨fun ho => (h2.1 _).2 (h _ ho).symm, fun e ho => (h2.2 e).2 ?_⟩
  have := h _ ho
  exact (congrArg Prod.snd this).symm

end Qtune.History.Parallel
