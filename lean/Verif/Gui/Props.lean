import Verif.Gui.Spec
import Mathlib.Tactic.ByContra

/-!
# Properties of the user interface

* C63: `pause_one_more`, `step_exactly_one`
* C64: `close_partial`, `close_refuted`
* C65: `buttons_partial`, `buttons_refuted`
-/

namespace Qtune.Gui

variable {lg : Logger}

theorem iterations_append (a b : List Event) : iterations (a ++ b) = iterations a + iterations b := by
  unfold iterations; rw [List.countP_append]

theorem run_cons (s : State) (a : Act) (as : List Act) :
    run lg s (a :: as) = ((run lg (step lg s a).1 as).1, (step lg s a).2 ++ (run lg (step lg s a).1 as).2) := rfl

/-- The worker has decided to iterate and not yet started. -/
def committed : WPC → Nat
  | .loop3 => 1
  | .body => 1
  | _ => 0

theorem quiet_step {s : State} {a : Act} (h1 : s.continuous = false) (h2 : s.stepped = false)
    (ha : a ≠ .call .start ∧ a ≠ .call .step) :
    (step lg s a).1.continuous = false ∧ (step lg s a).1.stepped = false ∧
      iterations (step lg s a).2 + committed (step lg s a).1.w ≤ committed s.w := by
  obtain ⟨stop, continuous, stepped, w, g⟩ := s
  simp only at h1 h2
  subst h1 h2
  cases a with
  | worker t ok =>
    cases w <;> cases t <;> cases ok <;> cases lg <;> cases stop <;> simp [step, workerStep, iterations, committed]
  | call op =>
    cases op with
    | start => exact absurd rfl ha.1
    | step => exact absurd rfl ha.2
    | pause => cases g <;> cases lg <;> cases w <;> simp [step, call, iterations, committed]
    | close => cases g <;> simp [step, call, iterations]
  | «continue» => cases g <;> cases w <;> simp [step, iterations, committed]

theorem quiet_run (as : List Act) : ∀ {s : State}, s.continuous = false → s.stepped = false → NoOrder as →
    iterations (run lg s as).2 ≤ committed s.w := by
  induction as with
  | nil => intro s _ _ _; simp [run, iterations]
  | cons a as ih =>
    intro s h1 h2 h3
    obtain ⟨q1, q2, q3⟩ := quiet_step (lg := lg) h1 h2 (h3 a (by simp))
    have := ih q1 q2 fun b hb => h3 b (List.mem_cons_of_mem _ hb)
    rw [run_cons, iterations_append]
    omega

theorem committed_le (w : WPC) : committed w ≤ 1 := by cases w <;> decide

/-- The flags while `pause` is executed. -/
theorem pausing_run (as : List Act) : ∀ {s : State}, s.g = .pausing → s.continuous = false → OnlyWorker as →
    (run lg s as).1.g = .pausing ∧ (run lg s as).1.continuous = false := by
  induction as with
  | nil => intro s h1 h2 _; exact ⟨h1, h2⟩
  | cons a as ih =>
    intro s h1 h2 h3
    obtain ⟨t, ok, rfl⟩ := h3 a (by simp)
    rw [run_cons]
    refine ih ?_ ?_ fun b hb => h3 b (List.mem_cons_of_mem _ hb)
    · simp only [step]; unfold workerStep; split <;> (try split) <;> exact h1
    · simp only [step]; unfold workerStep; split <;> (try split) <;> first | exact h2 | rfl

/-- C63: `pause()` is called in any state in which no method is being executed, and is accepted; the worker may run
while `pause()` is executed.  After it returned at most one further `iterate()` is started, until the next
`start()` or `step()`, for all interleavings. -/
theorem pause_one_more (s : State) (hg : s.g = .ready) (hl : lg = .logger) (during after : List Act)
    (hd : OnlyWorker during) (ha : NoOrder after) :
    let s₁ := (run lg s (.call .pause :: during ++ [.continue])).1
    s₁.g = .ready ∧ iterations (run lg s₁ after).2 ≤ 1 := by
  subst hl
  have run_append : ∀ (as bs : List Act) (s : State),
      (run .logger s (as ++ bs)).1 = (run .logger (run .logger s as).1 bs).1 := by
    intro as
    induction as with
    | nil => intro bs s; rfl
    | cons a as ih => intro bs s; rw [List.cons_append, run_cons, run_cons]; exact ih _ _
  have h0 : (step .logger s (.call .pause)).1 = { s with continuous := false, g := .pausing } := by
    simp [step, call, hg]
  rw [run_append, run_cons (s := s), h0]
  obtain ⟨h1, h2⟩ := pausing_run (lg := .logger) during (s := { s with continuous := false, g := .pausing }) rfl rfl hd
  generalize (run .logger { s with continuous := false, g := .pausing } during).1 = s₂ at h1 h2
  have h3 : (run .logger s₂ [.continue]).1 = { s₂ with stepped := false, g := .ready } := by
    simp [run, step, h1]
  dsimp only
  rw [h3]
  exact ⟨rfl, Nat.le_trans (quiet_run (lg := .logger) after (s := { s₂ with stepped := false, g := .ready }) h2 rfl ha)
    (committed_le _)⟩

/-- One more iteration does happen: the worker has just decided to iterate. -/
example : iterations (run .logger ⟨false, true, false, .body, .ready⟩
    [.call .pause, .continue, .worker .iterate true, .worker .iterate true, .worker .iterate true,
      .worker .iterate true]).2 = 1 := by decide

/-- How many steps the worker needs from an order to `iterate()`. -/
def distance : WPC → Nat
  | .wait1 => 7
  | .wait2 => 6
  | .wait3 => 5
  | .loop1 => 4
  | .loop2 => 3
  | .loop3 => 2
  | .body => 1
  | _ => 0

theorem ordered_run (as : List Act) : ∀ {s : State}, s.stop = false → s.continuous = false → s.stepped = true →
    0 < distance s.w → (∀ a ∈ as, ∃ ok, a = .worker .iterate ok) → distance s.w ≤ as.length →
    iterations (run .logger s as).2 = 1 := by
  -- after the start
  have after : ∀ (as : List Act) (s : State), s.stop = false → s.continuous = false →
      (s.w = .running ∨ s.w = .pause1 ∨ s.w = .pause2 ∨ s.w = .bodyEnd) → OnlyWorker as →
      iterations (run .logger s as).2 = 0 := by
    intro as
    induction as with
    | nil => intro s _ _ _ _; rfl
    | cons a as ih =>
      intro s h1 h2 h3 h4
      obtain ⟨t, ok, rfl⟩ := h4 a (by simp)
      have h5 : OnlyWorker as := fun b hb => h4 b (List.mem_cons_of_mem _ hb)
      obtain ⟨stop, continuous, stepped, w, g⟩ := s
      simp only at h1 h2 h3
      subst h1 h2
      rw [run_cons, iterations_append]
      rcases h3 with rfl | rfl | rfl | rfl
      · cases ok
        · exact (Nat.zero_add _).trans (ih _ rfl rfl (by simp [step, workerStep]) h5)
        · exact (Nat.zero_add _).trans (ih _ rfl rfl (by simp [step, workerStep]) h5)
      · exact (Nat.zero_add _).trans (ih _ rfl rfl (by simp [step, workerStep]) h5)
      · exact (Nat.zero_add _).trans (ih _ rfl rfl (by simp [step, workerStep]) h5)
      · have h6 : NoOrder as := fun b hb => by
          obtain ⟨t, ok, rfl⟩ := h5 b hb
          exact ⟨by simp, by simp⟩
        have := quiet_run (lg := .logger) as (s := ⟨false, false, false, .loop1, g⟩) rfl rfl h6
        simp only [committed] at this
        show 0 + iterations (run .logger ⟨false, false, false, .loop1, g⟩ as).2 = 0
        omega
  induction as with
  | nil => intro s _ _ _ h1 _ h2; simp at h2; omega
  | cons a as ih =>
    intro s h1 h2 h3 h4 h5 h6
    obtain ⟨ok, rfl⟩ := h5 a (by simp)
    have h7 : ∀ a ∈ as, ∃ ok, a = .worker .iterate ok := fun b hb => h5 b (List.mem_cons_of_mem _ hb)
    obtain ⟨stop, continuous, stepped, w, g⟩ := s
    simp only at h1 h2 h3 h4 h6
    subst h1 h2 h3
    rw [run_cons, iterations_append]
    simp only [List.length_cons] at h6
    cases w <;> simp only [distance] at h4 h6 <;> try omega
    case body =>
      have := after as ⟨false, false, true, .running, g⟩ rfl rfl (.inl rfl) fun b hb => by
        obtain ⟨ok, rfl⟩ := h7 b hb; exact ⟨_, _, rfl⟩
      show 1 + iterations (run .logger ⟨false, false, true, .running, g⟩ as).2 = 1
      omega
    all_goals
      refine (Nat.zero_add _).trans (ih rfl rfl rfl (by simp [step, workerStep, distance]) h7 ?_)
      simp [step, workerStep, distance]
      omega

/-- C63: a step ordered while the worker waits starts exactly one `iterate()`, however long the worker runs, if
there is an autotuner whose tuning is not complete. -/
theorem step_exactly_one (s : State) (hg : s.g = .ready) (hi : Idle s) (as : List Act)
    (ha : ∀ a ∈ as, ∃ ok, a = .worker .iterate ok) (hlong : 7 ≤ as.length) :
    iterations (run .logger s (.call .step :: as)).2 = 1 := by
  obtain ⟨h1, h2, h3, h4⟩ := hi
  have hs : step .logger s (.call .step) = ({ s with stepped := true }, []) := by
    have : s.w ≠ .dead := by rcases h4 with h | h | h <;> rw [h] <;> simp
    simp [step, call, hg, this]
  rw [run_cons, hs]
  refine ordered_run as h1 h2 rfl ?_ ha ?_
  · rcases h4 with h | h | h <;> simp [h, distance]
  · rcases h4 with h | h | h <;> simp [h, distance] <;> omega

/-- The worker waits after two steps. -/
example : Idle (run .logger init [.worker .iterate true, .worker .iterate true]).1 := by
  simp [Idle, run, step, workerStep, init]

/-! ## Closing -/

/-- How many steps the worker needs to end after `close()`, if it is not continuous. -/
def toEnd (s : State) : Nat :=
  match s.w with
  | .dead => 0
  | .outer => 1
  | .loop3 => 2
  | .loop2 => 3
  | .loop1 => 4
  | .wait3 => 6
  | .wait2 => 7
  | .wait1 => 5
  | .bodyEnd => 5
  | .pause2 => 6
  | .pause1 => 7
  | .running => 8
  | .body => 9

theorem closing_step {s : State} {a : Act} (h1 : s.stop = true) (h2 : s.continuous = false) (h3 : s.g ≠ .ready)
    (h4 : s.g ≠ .pausing) :
    (step .logger s a).1.stop = true ∧ (step .logger s a).1.continuous = false ∧ (step .logger s a).1.g ≠ .ready ∧
    (step .logger s a).1.g ≠ .pausing ∧
    toEnd (step .logger s a).1 ≤ toEnd s ∧ ((∃ t ok, a = .worker t ok) → toEnd (step .logger s a).1 ≤ toEnd s - 1) ∧
    iterations (step .logger s a).2 + (if (step .logger s a).1.w = .body then 1 else 0) ≤
      if s.w = .body then 1 else 0 := by
  obtain ⟨stop, continuous, stepped, w, g⟩ := s
  simp only at h1 h2 h3 h4
  subst h1 h2
  cases a with
  | worker t ok =>
    cases w <;> cases t <;> cases ok <;> cases stepped <;> cases g <;>
      first | exact absurd rfl h3 | exact absurd rfl h4 | simp [step, workerStep, toEnd, iterations]
  | call op => cases g <;> first | exact absurd rfl h3 | exact absurd rfl h4 | simp [step, iterations]
  | «continue» =>
    cases g <;> first | exact absurd rfl h3 | exact absurd rfl h4 | skip
    · cases w <;> simp [step, iterations, toEnd]
    · cases w <;> simp [step, iterations, toEnd]

/-- The number of steps of the worker. -/
def workerSteps (as : List Act) : Nat := as.countP fun a => match a with | .worker _ _ => true | _ => false

theorem closing_run (as : List Act) : ∀ {s : State}, s.stop = true → s.continuous = false → s.g ≠ .ready →
    s.g ≠ .pausing →
    iterations (run .logger s as).2 ≤ (if s.w = .body then 1 else 0) ∧
    toEnd (run .logger s as).1 ≤ toEnd s - workerSteps as := by
  induction as with
  | nil => intro s _ _ _ _; simp [run, iterations, workerSteps]
  | cons a as ih =>
    intro s h1 h2 h3 h4
    obtain ⟨q1, q2, q3, q4, q5, q6, q7⟩ := closing_step (a := a) h1 h2 h3 h4
    obtain ⟨r1, r2⟩ := ih q1 q2 q3 q4
    rw [run_cons]
    refine ⟨?_, ?_⟩
    · rw [iterations_append]; omega
    · dsimp only
      refine Nat.le_trans r2 ?_
      cases a with
      | worker t ok =>
        have := q6 ⟨t, ok, rfl⟩
        have : workerSteps (.worker t ok :: as) = workerSteps as + 1 := by
          unfold workerSteps; rw [List.countP_cons_of_pos rfl]
        omega
      | call op =>
        have : workerSteps (.call op :: as) = workerSteps as := by
          unfold workerSteps; rw [List.countP_cons_of_neg (by simp)]
        omega
      | «continue» =>
        have : workerSteps (.continue :: as) = workerSteps as := by
          unfold workerSteps; rw [List.countP_cons_of_neg (by simp)]
        omega

theorem dead_of_toEnd {s : State} (h : toEnd s = 0) : s.w = .dead := by
  obtain ⟨stop, continuous, stepped, w, g⟩ := s
  cases w <;> simp [toEnd] at h ⊢

/-- C64 (partial): if the worker is not in continuous mode when `close()` is called, at most one further `iterate()`
is started and the worker ends after at most nine steps, for all interleavings.  Missing: the continuous mode, see
`close_refuted`. -/
theorem close_partial (s : State) (hg : s.g = .ready) (hc : s.continuous = false) (as : List Act) :
    iterations (run .logger s (.call .close :: as)).2 ≤ 1 ∧
    (9 ≤ workerSteps as → (run .logger s (.call .close :: as)).1.w = .dead) := by
  have hs : step .logger s (.call .close) = ({ s with stop := true, g := .joining }, []) := by
    simp [step, call, hg]
  rw [run_cons, hs]
  obtain ⟨h1, h2⟩ := closing_run as (s := { s with stop := true, g := .joining }) rfl hc (by simp) (by simp)
  refine ⟨?_, fun h9 => dead_of_toEnd ?_⟩
  · refine Nat.le_trans h1 ?_
    split <;> omega
  · have : toEnd { s with stop := true, g := .joining } ≤ 9 := by
      obtain ⟨stop, continuous, stepped, w, g⟩ := s
      cases w <;> simp [toEnd]
    simp only
    omega

/-- An idle worker ends. -/
example : (run .logger init ([.worker .iterate true, .worker .iterate true, .call .close] ++
    List.replicate 9 (.worker .iterate true) ++ [.continue])).1.g = .closed := by decide

/-- The worker in continuous mode with an autotuner that can iterate. -/
theorem continuous_runs (n : Nat) :
    run .logger ⟨true, true, false, .loop1, .joining⟩ (List.replicate (4 * n) (.worker .iterate true)) =
      (⟨true, true, false, .loop1, .joining⟩, List.replicate n .started) := by
  induction n with
  | zero => rfl
  | succ n ih =>
    have : 4 * (n + 1) = 4 * n + 1 + 1 + 1 + 1 := by omega
    rw [this]
    simp only [List.replicate_succ, run, step, workerStep, if_true]
    rw [ih]
    rfl

theorem continuous_alive (as : List Act) (ha : ∀ a ∈ as, a = .worker .iterate true ∨ a = .continue) :
    ∀ s : State, s.continuous = true → s.stop = true → s.g = .joining →
      (s.w = .loop1 ∨ s.w = .body ∨ s.w = .running ∨ s.w = .bodyEnd) →
      (run .logger s as).1.w ≠ .dead ∧ (run .logger s as).1.g = .joining := by
  induction as with
  | nil =>
    intro s _ _ h3 h4
    refine ⟨?_, h3⟩
    rcases h4 with h | h | h | h <;> simp [run, h]
  | cons a as ih =>
    intro s h1 h2 h3 h4
    have ih := ih fun b hb => ha b (List.mem_cons_of_mem _ hb)
    rw [run_cons]
    obtain ⟨stop, continuous, stepped, w, g⟩ := s
    simp only at h1 h2 h3 h4
    subst h1 h2 h3
    rcases ha a (by simp) with rfl | rfl <;> rcases h4 with rfl | rfl | rfl | rfl <;>
      exact ih _ rfl rfl rfl (by simp [step, workerStep])

/-- C64 is false: in continuous mode `close()` does not stop the worker.  It is called in a reachable state; as long
as `iterate()` succeeds and the tuning is not complete, the worker never ends, `close()` never returns, and any
number of further `iterate()` is started. -/
theorem close_refuted : ∃ s, Reachable .logger s ∧ s.g = .ready ∧
    (∀ as, (∀ a ∈ as, a = .worker .iterate true ∨ a = .continue) →
      (run .logger s (.call .close :: as)).1.w ≠ .dead ∧
      (run .logger s (.call .close :: as)).1.g = .joining) ∧
    ∀ n, ∃ as, (∀ a ∈ as, a = .worker .iterate true) ∧
      iterations (run .logger s (.call .close :: as)).2 = n := by
  refine ⟨_, ⟨[.worker .iterate true, .call .start, .worker .iterate true, .worker .iterate true], rfl⟩, rfl, ?_, ?_⟩
  · intro as ha
    exact continuous_alive as ha ⟨true, true, false, .loop1, .joining⟩ rfl rfl rfl (.inl rfl)
  · intro n
    refine ⟨List.replicate (4 * n) (.worker .iterate true), fun a ha => List.eq_of_mem_replicate ha, ?_⟩
    have := continuous_runs n
    show iterations ([] ++ (run .logger ⟨true, true, false, .loop1, .joining⟩ _).2) = n
    rw [this]
    simp [iterations, List.countP_replicate]

/-! ## The argument `logger` -/

/-- C65 (partial): with a logger, `start()` and `step()` succeed in every state and order the worker to iterate.
Missing: names of loggers, see `buttons_refuted`. -/
theorem buttons_partial (s : State) :
    (call .logger .start s).2 = [] ∧ (call .logger .start s).1.continuous = true ∧
    (call .logger .step s).2 = [] ∧ (call .logger .step s).1.stepped = true ∧
    (s.w = .dead → (call .logger .start s).1.w = .outer ∧ (call .logger .start s).1.stop = false ∧
      (call .logger .step s).1.w = .outer ∧ (call .logger .step s).1.stop = false) := by
  refine ⟨rfl, rfl, rfl, rfl, fun h => ?_⟩
  simp [call, h, restartThread]

theorem named_run (as : List Act) : ∀ s : State, s.continuous = false → s.stepped = false → committed s.w = 0 →
    iterations (run .name s as).2 = 0 := by
  induction as with
  | nil => intro s _ _ _; rfl
  | cons a as ih =>
    intro s h1 h2 h3
    by_cases ha : a ≠ .call .start ∧ a ≠ .call .step
    · obtain ⟨q1, q2, q3⟩ := quiet_step (lg := .name) h1 h2 ha
      have := ih _ q1 q2 (by omega)
      rw [run_cons, iterations_append]
      omega
    · have : (step .name s a).1 = s ∧ iterations (step .name s a).2 = 0 := by
        have : a = .call .start ∨ a = .call .step := by
          by_cases h : a = .call .start
          · exact .inl h
          · refine .inr ?_
            by_contra h'
            exact ha ⟨h, h'⟩
        rcases this with rfl | rfl <;> simp only [step, call] <;> split <;> exact ⟨rfl, rfl⟩
      rw [run_cons, iterations_append, this.1, this.2]
      have := ih s h1 h2 h3
      omega

/-- C65 is false: with the name of a logger, as by default, `start()` and `step()` raise `AttributeError` in every
state and change nothing, and no execution ever starts `iterate()`. -/
theorem buttons_refuted :
    (∀ s, call .name .start s = (s, [.raised .attributeError]) ∧
      call .name .step s = (s, [.raised .attributeError])) ∧
    ∀ as, iterations (run .name init as).2 = 0 :=
  ⟨fun _ => ⟨rfl, rfl⟩, fun as => named_run as init rfl rfl rfl⟩

end Qtune.Gui
