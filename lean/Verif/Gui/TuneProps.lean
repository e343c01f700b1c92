import Verif.Gui.TuneModel
import Verif.Gui.Props

/-!
# Pressing Start tunes the device (C161, C162)
-/

namespace Qtune.Gui

variable {A : Type}

/-! ## Specification -/

/-- The autotuner after `k` calls of `iterate`, without a user interface. -/
def loop (M : Machine A) (k : Nat) (a : A) : A := (fun a => (M.iterate a).1)^[k] a

/-- The number of steps of the worker. -/
def workerTurns (as : List SAct) : Nat := as.countP fun a => match a with | .worker => true | _ => false

/-- The user leaves the buttons alone. -/
def HandsOff (as : List SAct) : Prop := ∀ a ∈ as, a = .worker ∨ a = .continue

/-- The call `iterate` can be made `N` times without exception, then the tuning is complete. -/
def TunedAfter (M : Machine A) (N : Nat) (a : A) : Prop :=
  (∀ j < N, M.complete (loop M j a) = false ∧ (M.iterate (loop M j a)).2 = true) ∧ M.complete (loop M N a) = true

/-! ## Lemmas -/

theorem loop_succ (M : Machine A) (k : Nat) (a : A) : loop M (k + 1) a = (M.iterate (loop M k a)).1 := by
  unfold loop
  rw [Function.iterate_succ_apply']

theorem Session.run_append (M : Machine A) (lg : Logger) (s : Session A) (as bs : List SAct) :
    s.run M lg (as ++ bs) = (((s.run M lg as).1.run M lg bs).1, (s.run M lg as).2 ++ ((s.run M lg as).1.run M lg bs).2) := by
  induction as generalizing s with
  | nil => simp [Session.run]
  | cons a as ih =>
    rw [List.cons_append, Session.run, ih, Session.run]
    simp

/-- The autotuner has made `k` calls; `e` calls of `iterate` were started. -/
def Counts (M : Machine A) (a : A) (s : Session A) (e : Nat) : Prop :=
  ∃ k, s.tuner = loop M k a ∧ (∀ j < k, M.complete (loop M j a) = false) ∧
    if s.gui.w = .running then e = k + 1 ∧ M.complete s.tuner = false else e = k

theorem Counts.step {M : Machine A} {lg : Logger} {a : A} {s : Session A} {e : Nat} (h : Counts M a s e) (act : SAct) :
    Counts M a (s.step M lg act).1 (e + iterations (s.step M lg act).2) := by
  obtain ⟨k, h1, h2, h3⟩ := h
  cases act with
  | worker =>
    unfold Session.step
    by_cases hr : s.gui.w = .running
    · rw [if_pos hr] at h3
      simp only [hr, if_true]
      refine ⟨k + 1, by rw [loop_succ, h1], ?_, ?_⟩
      · intro j hj
        rcases Nat.lt_succ_iff_lt_or_eq.1 hj with h | rfl
        · exact h2 j h
        · rw [← h1]; exact h3.2
      · simp only [workerStep, hr]
        have : ∀ c : Bool, (if c = true then WPC.bodyEnd else if lg = .logger then .pause1 else .dead) ≠ .running := by
          intro c
          split
          · simp
          · split <;> simp
        rw [if_neg (this _)]
        simp [iterations, h3.1]
    · rw [if_neg hr] at h3
      simp only [hr, if_false]
      refine ⟨k, h1, h2, ?_⟩
      dsimp only
      cases hw : s.gui.w <;> simp only [workerStep, hw] <;> first
        | exact absurd hw hr
        | (by_cases hb : M.complete s.tuner = true
           · simp only [Machine.found, hb, if_true]
             split <;> simp_all [iterations]
           · simp only [Machine.found, hb]
             simp [iterations, h3])
        | (split <;> simp_all [iterations])
  | call op =>
    unfold Session.step
    refine ⟨k, h1, h2, ?_⟩
    have : (Gui.step lg s.gui (.call op)).1.w = s.gui.w ∨ (s.gui.w = .dead ∧ (Gui.step lg s.gui (.call op)).1.w = .outer) := by
      unfold Gui.step
      dsimp only
      split
      · unfold call
        cases op <;> dsimp only <;> (try split) <;> first | exact Or.inl rfl | skip
        all_goals
          by_cases hd : s.gui.w = .dead
          · right; simp [hd, restartThread]
          · left; simp [hd]
      · exact Or.inl rfl
    have hev : iterations (Gui.step lg s.gui (.call op)).2 = 0 := by
      unfold Gui.step
      dsimp only
      split
      · unfold call
        cases op <;> dsimp only <;> (try split) <;> simp [iterations]
      · simp [iterations]
    dsimp only
    rw [hev]
    rcases this with h | ⟨h, h'⟩
    · rw [h]; exact h3
    · rw [h']; rw [h] at h3; simpa using h3
  | «continue» =>
    unfold Session.step
    refine ⟨k, h1, h2, ?_⟩
    cases hg : s.gui.g <;> simp only [Gui.step, hg]
    · simpa [iterations] using h3
    · simpa [iterations] using h3
    · split <;> simpa [iterations] using h3
    · simpa [iterations] using h3

theorem Counts.run {M : Machine A} {lg : Logger} {a : A} (as : List SAct) : ∀ {s : Session A} {e : Nat}, Counts M a s e →
    Counts M a (s.run M lg as).1 (e + iterations (s.run M lg as).2) := by
  induction as with
  | nil => intro s e h; simpa [Session.run, iterations] using h
  | cons x as ih =>
    intro s e h
    have := ih (h.step (lg := lg) x)
    rw [Session.run]
    dsimp only
    rw [iterations_append, ← Nat.add_assoc]
    exact this

theorem Counts.init {M : Machine A} (a : A) : Counts M a ⟨Gui.init, a⟩ 0 := ⟨0, rfl, by simp, by simp [Gui.init]⟩

/-! ### After `start()` -/

/-- States after `start()` was called, if `iterate` does not raise: `k` calls have been made. -/
structure Going (M : Machine A) (a : A) (N k : Nat) (s : Session A) : Prop where
  stop : s.gui.stop = false
  ready : s.gui.g = .ready
  alive : s.gui.w ≠ .dead
  le : k ≤ N
  tuner : s.tuner = loop M k a
  running : s.gui.w = .running → k < N
  pausing : s.gui.w = .pause1 ∨ s.gui.w = .pause2 → k = N
  order : s.gui.continuous = true ∨ (k = N ∧ (s.gui.w = .pause2 ∨ s.gui.w = .bodyEnd ∨ (s.gui.stepped = false ∧
    (s.gui.w = .loop1 ∨ s.gui.w = .loop2 ∨ s.gui.w = .outer ∨ s.gui.w = .wait1 ∨ s.gui.w = .wait2 ∨ s.gui.w = .wait3))))

/-- A bound of the steps of the worker until it waits. -/
def remaining (N k : Nat) (g : State) : Nat :=
  if g.continuous then 4 * (N - k) + match g.w with
    | .outer => 11 | .wait1 => 10 | .wait2 => 9 | .wait3 => 11 | .loop1 => 8 | .loop2 => 12 | .loop3 => 8 | .body => 7
    | .running => 6 | .pause1 => 6 | .pause2 => 10 | .bodyEnd => 9 | .dead => 0
  else match g.w with
    | .pause2 => 5 | .bodyEnd => 4 | .loop1 => 3 | .loop2 => 2 | .outer => 1 | _ => 0

theorem Going.worker {M : Machine A} {a : A} {N k : Nat} (hN : TunedAfter M N a) {s : Session A} (h : Going M a N k s) :
    ∃ k', Going M a N k' (s.step M .logger .worker).1 ∧
      remaining N k' (s.step M .logger .worker).1.gui ≤ remaining N k s.gui - 1 := by
  obtain ⟨h1, h2, h3, h4, h5, h6, h7, h8⟩ := h
  obtain ⟨⟨stop, continuous, stepped, w, g⟩, t⟩ := s
  dsimp only at h1 h2 h3 h4 h5 h6 h7 h8
  subst h1 h2 h5
  cases w with
  | dead => exact absurd rfl h3
  | running =>
    have hk := h6 rfl
    have hc : continuous = true := by
      rcases h8 with h | ⟨rfl, -⟩
      · exact h
      · omega
    subst hc
    have hit := (hN.1 k hk).2
    refine ⟨k + 1, ?_, ?_⟩
    · simp only [Session.step, workerStep, if_true, hit]
      exact ⟨rfl, rfl, by simp, hk, (loop_succ M k a).symm, by simp, by simp, Or.inl rfl⟩
    · simp only [Session.step, workerStep, if_true, hit, remaining]
      omega
  | body =>
    have hc : continuous = true := by
      rcases h8 with h | ⟨-, h⟩
      · exact h
      · simp at h
    subst hc
    by_cases hk : k = N
    · subst hk
      have hf : M.found (loop M k a) = .complete := by simp [Machine.found, hN.2]
      refine ⟨k, ?_, ?_⟩
      · simp only [Session.step, workerStep, hf]
        exact ⟨rfl, rfl, by simp, le_refl _, rfl, by simp, by simp, Or.inl rfl⟩
      · simp [Session.step, workerStep, hf, remaining]
    · have hlt : k < N := by omega
      have hf : M.found (loop M k a) = .iterate := by simp [Machine.found, (hN.1 k hlt).1]
      refine ⟨k, ?_, ?_⟩
      · simp only [Session.step, workerStep, hf]
        exact ⟨rfl, rfl, by simp, h4, rfl, fun _ => hlt, by simp, Or.inl rfl⟩
      · simp [Session.step, workerStep, hf, remaining]
  | pause1 =>
    have hk : k = N := h7 (Or.inl rfl)
    subst hk
    have hc : continuous = true := by
      rcases h8 with h | ⟨-, h⟩
      · exact h
      · simp at h
    subst hc
    refine ⟨k, ?_, ?_⟩
    · simp only [Session.step, workerStep]
      exact ⟨rfl, rfl, by simp, le_refl _, rfl, by simp, by simp, Or.inr ⟨rfl, Or.inl rfl⟩⟩
    · simp [Session.step, workerStep, remaining]
  | pause2 =>
    have hk : k = N := h7 (Or.inr rfl)
    subst hk
    refine ⟨k, ?_, ?_⟩
    · simp only [Session.step, workerStep]
      refine ⟨rfl, rfl, by simp, le_refl _, rfl, by simp, by simp, ?_⟩
      cases continuous
      · exact Or.inr ⟨rfl, Or.inr (Or.inl rfl)⟩
      · exact Or.inl rfl
    · cases continuous <;> simp [Session.step, workerStep, remaining]
  | bodyEnd =>
    refine ⟨k, ?_, ?_⟩
    · simp only [Session.step, workerStep]
      refine ⟨rfl, rfl, by simp, h4, rfl, by simp, by simp, ?_⟩
      rcases h8 with h | ⟨h, -⟩
      · exact Or.inl h
      · exact Or.inr ⟨h, Or.inr (Or.inr ⟨rfl, Or.inl rfl⟩)⟩
    · cases continuous <;> simp [Session.step, workerStep, remaining]
  | loop3 =>
    have hc : continuous = true := by
      rcases h8 with h | ⟨-, h⟩
      · exact h
      · simp at h
    subst hc
    refine ⟨k, ?_, ?_⟩
    · simp only [Session.step, workerStep]
      exact ⟨rfl, rfl, by simp, h4, rfl, by simp, by simp, Or.inl rfl⟩
    · simp [Session.step, workerStep, remaining]
  | outer | wait1 | wait2 | wait3 | loop1 | loop2 =>
    cases continuous
    · have hs : stepped = false ∧ k = N := by
        rcases h8 with h | ⟨h, h'⟩
        · simp at h
        · exact ⟨by simpa using h', h⟩
      obtain ⟨rfl, rfl⟩ := hs
      refine ⟨k, ?_, ?_⟩
      · simp only [Session.step, workerStep]
        exact ⟨rfl, rfl, by simp, le_refl _, rfl, by simp, by simp, Or.inr ⟨rfl, by simp⟩⟩
      · simp [Session.step, workerStep, remaining]
    · refine ⟨k, ?_, ?_⟩
      · simp only [Session.step, workerStep]
        cases stepped <;> exact ⟨rfl, rfl, by simp, h4, rfl, by simp, by simp, Or.inl rfl⟩
      · cases stepped <;> simp [Session.step, workerStep, remaining]

theorem Going.run {M : Machine A} {a : A} {N : Nat} (hN : TunedAfter M N a) (as : List SAct) : ∀ {s : Session A} {k : Nat}, Going M a N k s →
    HandsOff as → ∃ k', Going M a N k' (s.run M .logger as).1 ∧
      remaining N k' (s.run M .logger as).1.gui ≤ remaining N k s.gui - workerTurns as := by
  induction as with
  | nil => intro s k h _; exact ⟨k, h, by simp [workerTurns, Session.run]⟩
  | cons x as ih =>
    intro s k h ho
    have ho' : HandsOff as := fun y hy => ho y (List.mem_cons_of_mem _ hy)
    rcases ho x (by simp) with rfl | rfl
    · obtain ⟨k1, g1, r1⟩ := h.worker hN
      obtain ⟨k2, g2, r2⟩ := ih g1 ho'
      refine ⟨k2, g2, ?_⟩
      have : workerTurns (.worker :: as) = workerTurns as + 1 := by simp [workerTurns]
      rw [this]
      have e : (s.run M .logger (.worker :: as)).1 = ((s.step M .logger .worker).1.run M .logger as).1 := rfl
      rw [e]
      omega
    · have e : s.step M .logger .continue = (s, []) := by
        simp [Session.step, Gui.step, h.ready]
      obtain ⟨k2, g2, r2⟩ := ih h ho'
      refine ⟨k2, ?_, ?_⟩
      · rw [Session.run, e]; exact g2
      · rw [Session.run, e]
        have : workerTurns (.continue :: as) = workerTurns as := by simp [workerTurns]
        rw [this]
        exact r2

/-- What holds before `close()`. -/
structure Open (M : Machine A) (a : A) (N : Nat) (s : Session A) : Prop where
  stop : s.gui.g = .ready ∨ s.gui.g = .pausing → s.gui.stop = false ∧ s.gui.w ≠ .dead
  tuner : ∃ k ≤ N, s.tuner = loop M k a ∧ (s.gui.w = .running → k < N) ∧ (s.gui.w = .pause1 ∨ s.gui.w = .pause2 → k = N)

theorem Open.step {M : Machine A} {a : A} {N : Nat} (hN : TunedAfter M N a) {s : Session A} (h : Open M a N s) (act : SAct) :
    Open M a N (s.step M .logger act).1 := by
  obtain ⟨h1, k, hk, h2, h3, h4⟩ := h
  obtain ⟨⟨stop, continuous, stepped, w, g⟩, t⟩ := s
  dsimp only at h1 h2 h3 h4
  subst h2
  cases act with
  | worker =>
    cases w with
    | running =>
      have hlt := h3 rfl
      simp only [Session.step, workerStep, if_true, (hN.1 k hlt).2]
      exact ⟨fun h => ⟨(h1 h).1, by simp⟩, k + 1, hlt, (loop_succ M k a).symm, by simp, by simp⟩
    | body =>
      by_cases he : k = N
      · subst he
        have hf : M.found (loop M k a) = .complete := by simp [Machine.found, hN.2]
        simp only [Session.step, workerStep, hf]
        exact ⟨fun h => ⟨(h1 h).1, by simp⟩, k, le_refl _, rfl, by simp, by simp⟩
      · have hlt : k < N := by omega
        have hf : M.found (loop M k a) = .iterate := by simp [Machine.found, (hN.1 k hlt).1]
        simp only [Session.step, workerStep, hf]
        exact ⟨fun h => ⟨(h1 h).1, by simp⟩, k, hk, rfl, fun _ => hlt, by simp⟩
    | pause1 =>
      have := h4 (Or.inl rfl)
      simp only [Session.step, workerStep]
      exact ⟨fun h => ⟨(h1 h).1, by simp⟩, k, hk, rfl, by simp, fun _ => this⟩
    | outer =>
      simp only [Session.step, workerStep]
      refine ⟨fun h => ⟨(h1 h).1, ?_⟩, k, hk, rfl, ?_, ?_⟩
      · simp [(h1 h).1]
      · cases stop <;> simp
      · cases stop <;> simp
    | dead =>
      simp only [Session.step, workerStep]
      exact ⟨h1, k, hk, rfl, by simp, by simp⟩
    | wait1 | wait2 | wait3 | loop1 | loop2 | loop3 | pause2 | bodyEnd =>
      simp only [Session.step, workerStep]
      refine ⟨fun h => ⟨(h1 h).1, ?_⟩, k, hk, rfl, ?_, ?_⟩ <;>
        cases stop <;> cases continuous <;> cases stepped <;> simp
  | call op =>
    unfold Session.step Gui.step
    dsimp only
    split
    · rename_i hg
      obtain ⟨e1, e2⟩ := h1 (Or.inl hg)
      cases op <;> simp only [call, e2, if_false, reduceCtorEq, false_and]
      · exact ⟨fun _ => ⟨e1, e2⟩, k, hk, rfl, h3, h4⟩
      · exact ⟨fun _ => ⟨e1, e2⟩, k, hk, rfl, h3, h4⟩
      · exact ⟨fun _ => ⟨e1, e2⟩, k, hk, rfl, h3, h4⟩
      · exact ⟨fun h => by simp at h, k, hk, rfl, h3, h4⟩
    · exact ⟨h1, k, hk, rfl, h3, h4⟩
  | «continue» =>
    unfold Session.step
    dsimp only
    cases hg : g <;> simp only [Gui.step]
    · subst hg; exact ⟨h1, k, hk, rfl, h3, h4⟩
    · exact ⟨fun _ => h1 (Or.inr hg), k, hk, rfl, h3, h4⟩
    · subst hg
      split
      · exact ⟨fun h => by simp at h, k, hk, rfl, h3, h4⟩
      · exact ⟨h1, k, hk, rfl, h3, h4⟩
    · subst hg; exact ⟨h1, k, hk, rfl, h3, h4⟩

theorem Open.run {M : Machine A} {a : A} {N : Nat} (hN : TunedAfter M N a) (as : List SAct) : ∀ {s : Session A}, Open M a N s →
    Open M a N (s.run M .logger as).1 := by
  induction as with
  | nil => intro s h; exact h
  | cons x as ih => intro s h; exact ih (h.step hN x)

/-! ## Theorems -/

/-- **C161**.  However often and whenever the buttons are pressed, for all schedules and loggers: the worker leads the autotuner through the states
that a loop of `iterate` goes through, one state for each call, and it calls `iterate` only while the tuning is not complete. -/
theorem session_is_loop (M : Machine A) (lg : Logger) (a : A) (as : List SAct) :
    ∃ k, ((⟨init, a⟩ : Session A).run M lg as).1.tuner = loop M k a ∧ (∀ j < k, M.complete (loop M j a) = false) ∧
      iterations ((⟨init, a⟩ : Session A).run M lg as).2 =
        if ((⟨init, a⟩ : Session A).run M lg as).1.gui.w = .running then k + 1 else k := by
  obtain ⟨k, h1, h2, h3⟩ := (Counts.init (M := M) a).run (lg := lg) as
  refine ⟨k, h1, h2, ?_⟩
  split
  · rename_i h; rw [if_pos h] at h3; simpa using h3.1
  · rename_i h; rw [if_neg h] at h3; simpa using h3

/-- **C161**.  Whatever has been pressed before: after Start, if nothing else is pressed and `iterate` does not raise, the worker calls
`iterate` until the tuning is complete, and then waits.  It takes at most `4 * N + 12` steps of the worker, and altogether exactly
`N` calls. -/
theorem start_completes (M : Machine A) (a : A) (N : Nat) (hN : TunedAfter M N a) (before after : List SAct)
    (hready : ((⟨init, a⟩ : Session A).run M .logger before).1.gui.g = .ready) (ho : HandsOff after)
    (hlong : 4 * N + 12 ≤ workerTurns after) :
    ((⟨init, a⟩ : Session A).run M .logger (before ++ .call .start :: after)).1.tuner = loop M N a ∧
      Idle ((⟨init, a⟩ : Session A).run M .logger (before ++ .call .start :: after)).1.gui ∧
      iterations ((⟨init, a⟩ : Session A).run M .logger (before ++ .call .start :: after)).2 = N := by
  have hopen : Open M a N ⟨init, a⟩ := ⟨fun _ => ⟨rfl, by simp [init]⟩, 0, Nat.zero_le _, rfl, by simp [init], by simp [init]⟩
  have ho1 := hopen.run hN before
  set s := ((⟨init, a⟩ : Session A).run M .logger before).1 with hs
  obtain ⟨e1, e2⟩ := ho1.stop (Or.inl hready)
  obtain ⟨k, hk, t1, t2, t3⟩ := ho1.tuner
  have hstep : s.step M .logger (.call .start) = (⟨{ s.gui with continuous := true }, s.tuner⟩, []) := by
    simp [Session.step, Gui.step, hready, call, e2]
  have hgo : Going M a N k ⟨{ s.gui with continuous := true }, s.tuner⟩ := ⟨e1, hready, e2, hk, t1, t2, t3, Or.inl rfl⟩
  obtain ⟨k', g', r'⟩ := hgo.run hN after ho
  have hfin : ((⟨init, a⟩ : Session A).run M .logger (before ++ .call .start :: after)).1 =
      ((⟨{ s.gui with continuous := true }, s.tuner⟩ : Session A).run M .logger after).1 := by
    rw [Session.run_append, Session.run]
    dsimp only
    rw [← hs, hstep]
  obtain ⟨i, c1, c2, c3⟩ := session_is_loop M .logger a (before ++ .call .start :: after)
  rw [hfin] at c1 c3 ⊢
  have hrem : remaining N k' ((⟨{ s.gui with continuous := true }, s.tuner⟩ : Session A).run M .logger after).1.gui = 0 := by
    have : remaining N k ({ s.gui with continuous := true } : State) ≤ 4 * N + 12 := by
      unfold remaining
      simp only [if_true]
      split <;> omega
    exact Nat.le_zero.1 (r'.trans (Nat.le_of_eq (Nat.sub_eq_zero_of_le (this.trans hlong))))
  generalize hq : ((⟨{ s.gui with continuous := true }, s.tuner⟩ : Session A).run M .logger after).1 = q at *
  obtain ⟨g1, g2, g3, g4, g5, g6, g7, g8⟩ := g'
  obtain ⟨⟨stop, continuous, stepped, w, g⟩, t⟩ := q
  dsimp only at g1 g2 g3 g4 g5 g6 g7 g8 hrem c1 c3 ⊢
  have hidle : k' = N ∧ Idle ⟨stop, continuous, stepped, w, g⟩ := by
    cases continuous
    · rcases g8 with h | ⟨h, h'⟩
      · simp at h
      · refine ⟨h, g1, rfl, ?_⟩
        cases w <;> simp_all [remaining]
    · exfalso
      unfold remaining at hrem
      cases w <;> simp at hrem g3
  obtain ⟨rfl, hi⟩ := hidle
  have hw : w ≠ .running := by
    rintro rfl
    obtain ⟨-, -, -, h⟩ := hi
    simp at h
  refine ⟨g5, hi, ?_⟩
  rw [c3, if_neg hw]
  -- `i` calls lead to a complete state
  rcases Nat.lt_trichotomy i k' with h | h | h
  · exfalso
    have := (hN.1 i h).1
    rw [← c1, g5, hN.2] at this
    simp at this
  · exact h
  · exfalso
    have := c2 k' h
    rw [hN.2] at this
    simp at this

/-- **C161**.  If `iterate` or `append_autotuner` raises, the worker has made this one call and waits; it goes on only if it is started again. -/
theorem start_stops_at_exception (M : Machine A) (s : Session A) (hg : s.gui.g = .ready) (hi : Idle s.gui)
    (hc : M.complete s.tuner = false) (hbad : (M.iterate s.tuner).2 = false) (after : List SAct) (ho : HandsOff after)
    (hlong : 12 ≤ workerTurns after) :
    (s.run M .logger (.call .start :: after)).1.tuner = (M.iterate s.tuner).1 ∧
      Idle (s.run M .logger (.call .start :: after)).1.gui ∧
      iterations (s.run M .logger (.call .start :: after)).2 = 1 := by
  obtain ⟨⟨stop, continuous, stepped, w, g⟩, t⟩ := s
  obtain ⟨i1, i2, i3, i4⟩ := hi
  dsimp only at hg hc hbad i1 i2 i3 i4 ⊢
  subst i1 i2 i3 hg
  have hf : M.found t = .iterate := by simp [Machine.found, hc]
  -- states after the start with the steps that are left, the autotuner and the calls
  let P : Nat → Session A → Nat → Prop := fun r q e =>
    (q.gui.stop = false ∧ q.gui.g = .ready ∧
      ((q.tuner = t ∧ q.gui.continuous = true ∧ q.gui.stepped = false ∧
          ((r = 12 ∧ e = 0 ∧ q.gui.w = .wait3) ∨ (r = 11 ∧ e = 0 ∧ q.gui.w = .wait1) ∨ (r = 10 ∧ e = 0 ∧ q.gui.w = .wait2) ∨
            (r = 9 ∧ e = 0 ∧ q.gui.w = .loop1) ∨ (r = 8 ∧ e = 0 ∧ q.gui.w = .body) ∨ (r = 7 ∧ e = 1 ∧ q.gui.w = .running))) ∨
        (q.tuner = (M.iterate t).1 ∧ e = 1 ∧ ((r = 6 ∧ q.gui.w = .pause1) ∨ (q.gui.continuous = false ∧ ((r = 5 ∧ q.gui.w = .pause2) ∨
            (q.gui.stepped = false ∧ ((r = 4 ∧ q.gui.w = .bodyEnd) ∨ (r = 3 ∧ q.gui.w = .loop1) ∨ (r = 2 ∧ q.gui.w = .loop2) ∨
              (r = 1 ∧ q.gui.w = .outer) ∨ (r = 0 ∧ (q.gui.w = .wait1 ∨ q.gui.w = .wait2 ∨ q.gui.w = .wait3))))))))))
  have hP : ∀ r q e, P r q e → P (r - 1) (q.step M .logger .worker).1 (e + iterations (q.step M .logger .worker).2) := by
    rintro r ⟨⟨stop, continuous, stepped, w, g⟩, t'⟩ e ⟨h1, h2, h3⟩
    dsimp only at h1 h2 h3
    subst h1 h2
    rcases h3 with ⟨rfl, rfl, rfl, h | h | h | h | h | h⟩ | ⟨rfl, rfl, ⟨rfl, rfl⟩ | ⟨rfl, ⟨rfl, rfl⟩ | ⟨rfl, h⟩⟩⟩
    · obtain ⟨rfl, rfl, rfl⟩ := h
      simp [P, Session.step, workerStep, iterations]
    · obtain ⟨rfl, rfl, rfl⟩ := h
      simp [P, Session.step, workerStep, iterations]
    · obtain ⟨rfl, rfl, rfl⟩ := h
      simp [P, Session.step, workerStep, iterations]
    · obtain ⟨rfl, rfl, rfl⟩ := h
      simp [P, Session.step, workerStep, iterations]
    · obtain ⟨rfl, rfl, rfl⟩ := h
      simp [P, Session.step, workerStep, iterations, hf]
    · obtain ⟨rfl, rfl, rfl⟩ := h
      simp [P, Session.step, workerStep, iterations, hbad]
    · simp [P, Session.step, workerStep, iterations]
    · simp [P, Session.step, workerStep, iterations]
    · rcases h with ⟨rfl, rfl⟩ | ⟨rfl, rfl⟩ | ⟨rfl, rfl⟩ | ⟨rfl, rfl⟩ | ⟨rfl, rfl | rfl | rfl⟩ <;>
        simp [P, Session.step, workerStep, iterations]
  have hrun : ∀ (as : List SAct) r q e, HandsOff as → P r q e →
      P (r - workerTurns as) (q.run M .logger as).1 (e + iterations (q.run M .logger as).2) := by
    intro as
    induction as with
    | nil => intro r q e _ h; simpa [workerTurns, Session.run, iterations] using h
    | cons x as ih =>
      intro r q e ho h
      have ho' : HandsOff as := fun y hy => ho y (List.mem_cons_of_mem _ hy)
      rcases ho x (by simp) with rfl | rfl
      · have := ih _ _ _ ho' (hP r q e h)
        have e1 : workerTurns (.worker :: as) = workerTurns as + 1 := by simp [workerTurns]
        rw [e1, Session.run]
        dsimp only
        rw [iterations_append, ← Nat.add_assoc, Nat.add_comm _ 1, ← Nat.sub_sub]
        exact this
      · have e2 : q.step M .logger .continue = (q, []) := by simp [Session.step, Gui.step, h.2.1]
        have := ih _ _ _ ho' h
        have e1 : workerTurns (.continue :: as) = workerTurns as := by simp [workerTurns]
        rw [e1, Session.run, e2]
        simpa using this
  have hstart : (⟨⟨false, false, false, w, .ready⟩, t⟩ : Session A).step M .logger (.call .start) =
      (⟨⟨false, true, false, w, .ready⟩, t⟩, []) := by
    have : w ≠ .dead := by rcases i4 with rfl | rfl | rfl <;> simp
    simp [Session.step, Gui.step, call, this]
  have hbegin : ∃ r ≤ 12, P r ⟨⟨false, true, false, w, .ready⟩, t⟩ 0 := by
    rcases i4 with rfl | rfl | rfl
    · exact ⟨11, by omega, by simp [P]⟩
    · exact ⟨10, by omega, by simp [P]⟩
    · exact ⟨12, by omega, by simp [P]⟩
  obtain ⟨r, hr, h0⟩ := hbegin
  have hend := hrun after r _ 0 ho h0
  rw [Nat.sub_eq_zero_of_le (hr.trans hlong)] at hend
  rw [Session.run, hstart]
  dsimp only
  rw [List.nil_append]
  obtain ⟨h1, h2, h3⟩ := hend
  rcases h3 with ⟨-, -, -, h⟩ | ⟨h4, h5, h⟩
  · omega
  · refine ⟨h4, ?_, by simpa using h5⟩
    rcases h with ⟨h, -⟩ | ⟨h6, ⟨h, -⟩ | ⟨h7, ⟨h, -⟩ | ⟨h, -⟩ | ⟨h, -⟩ | ⟨h, -⟩ | ⟨-, h⟩⟩⟩
    all_goals first | omega | exact ⟨h1, h6, h7, h⟩

variable {W X V P C γ κ ρ π : Type}

open Autotuner EndToEnd

/-- Calls of `iterate` that do not raise. -/
theorem loop_iterates (H : Hierarchy W X V P C) : ∀ (N : Nat) (s s' : Autotuner.State W X V), iterates H N s = .ok s' →
    loop (autotunerMachine H) N s = s' ∧ ∀ j < N, (autotunerMachine H).complete (loop (autotunerMachine H) j s) = false ∧
      ((autotunerMachine H).iterate (loop (autotunerMachine H) j s)).2 = true := by
  intro N
  induction N with
  | zero => intro s s' h; simp only [iterates, Except.ok.injEq] at h; exact ⟨h, by simp⟩
  | succ N ih =>
    intro s s' h
    rw [iterates] at h
    split at h
    · cases h
    · rename_i s1 ev hit
      obtain ⟨h1, h2⟩ := ih s1 s' h
      have e : ∀ j, loop (autotunerMachine H) (j + 1) s = loop (autotunerMachine H) j s1 := by
        intro j
        unfold loop
        rw [Function.iterate_succ_apply]
        simp only [autotunerMachine, hit]
      refine ⟨(e N).trans h1, ?_⟩
      intro j hj
      cases j with
      | zero =>
        refine ⟨?_, ?_⟩
        · by_contra hc
          have hc' : isComplete H s = true := by simpa [loop, autotunerMachine] using hc
          unfold Autotuner.iterate at hit
          rw [hc'] at hit
          split at hit <;> simp at hit
        · simp only [loop, Function.iterate_zero, id, autotunerMachine, hit]
          rfl
      | succ j => rw [e]; exact h2 j (by omega)

/-- **C161** for an autotuner without history: if `N` calls of `iterate` complete the tuning, so does pressing Start, whatever was pressed
before, and then the worker waits. -/
theorem start_tunes (H : Hierarchy W X V P C) (s s' : Autotuner.State W X V) (N : Nat) (hN : iterates H N s = .ok s')
    (hc : isComplete H s' = true) (before after : List SAct)
    (hready : ((⟨init, s⟩ : Session (Autotuner.State W X V)).run (autotunerMachine H) .logger before).1.gui.g = .ready)
    (ho : HandsOff after) (hlong : 4 * N + 12 ≤ workerTurns after) :
    ((⟨init, s⟩ : Session (Autotuner.State W X V)).run (autotunerMachine H) .logger (before ++ .call .start :: after)).1.tuner = s' ∧
      Idle ((⟨init, s⟩ : Session (Autotuner.State W X V)).run (autotunerMachine H) .logger (before ++ .call .start :: after)).1.gui := by
  obtain ⟨h1, h2⟩ := loop_iterates H N s s' hN
  obtain ⟨h3, h4, -⟩ := start_completes (autotunerMachine H) s N ⟨h2, by rw [h1]; exact hc⟩ before after hready ho hlong
  exact ⟨h3.trans h1, h4⟩

end Qtune.Gui
