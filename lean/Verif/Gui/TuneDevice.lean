import Verif.Gui.TuneProps
import Verif.EndToEnd.Props
import Verif.EndToEnd.PropsHistory

/-!
# Pressing Start and Step with devices and histories (C161, C162)
-/

namespace Qtune.Gui

open Autotuner EndToEnd Gradient _root_.Qtune.Tuner

variable {n m : Nat}

/-- **C161** with C75: an affine device is tuned by pressing Start, whatever was pressed before; the worker then waits and the voltages meet
the set points. -/
theorem start_tunes_affine_device {S : Setup n m} (hS : S.Valid) {orth : Orth n} (ho : OrthSpec orth)
    {lstsq : Newton.Lstsq (Fin n)} (hl : Newton.LstsqSpec lstsq) (c : Vec n) (t : OneTuner (FD n) n) {B : ℝ}
    (ht : Initial S c B t) (hmax : t.maxStep = none) (before after : List SAct)
    (hready : ((⟨init, fresh t (volts c)⟩ : Session _).run (autotunerMachine (hierarchy (fdI orth) lstsq S.outs)) .logger
      before).1.gui.g = .ready) (hoff : HandsOff after) (hlong : 12 * n + 28 ≤ workerTurns after) :
    ∃ s', ((⟨init, fresh t (volts c)⟩ : Session _).run (autotunerMachine (hierarchy (fdI orth) lstsq S.outs)) .logger
        (before ++ .call .start :: after)).1 = s' ∧ Idle s'.gui ∧ isComplete (hierarchy (fdI orth) lstsq S.outs) s'.tuner = true ∧
      ∃ q : Vec n, s'.tuner.expt = volts q ∧ SetPointsMet S q := by
  obtain ⟨M, hM, s', h1, h2, h3⟩ := affine_device_is_tuned hS ho hl c t ht hmax
  obtain ⟨h4, h5⟩ := start_tunes _ _ s' M h1 h2 before after hready hoff (by omega)
  exact ⟨_, rfl, h5, by rw [h4]; exact h2, by rw [h4]; exact h3⟩

/-- The calls of the worker with a history. -/
theorem loop_watched {W X V P C γ κ ρ π : Type} [DecidableEq γ] (R : History.Reader W γ κ ρ) (known : W → Nat → Bool)
    (H : Hierarchy W X V P C) (path : Nat → π) (s : Autotuner.State W X V) (k : Nat) :
    loop (historyMachine R known H path) k (s, History.Hist.empty, 0) =
      ((History.watched R known H path s k).1, (History.watched R known H path s k).2.1, k) := by
  induction k with
  | zero => rfl
  | succ k ih =>
    rw [loop_succ, ih, History.watched]
    rcases History.watched R known H path s k with ⟨s1, h, os⟩
    dsimp only [historyMachine]
    rcases iterate H (.ok ()) s1 with ⟨s2, ev, e | u⟩ <;> rfl

open Classical in
/-- **C161** is false with a history and finite difference estimators that have measured nothing, for every device and every number of tuners:
during the first `n` calls (`n` gates) each Start leads to a single call of `iterate`, then the worker waits. -/
theorem start_fresh_history_refuted {κ ρ π : Type} (R : History.Reader (Shared (FD n) n) (Volt (Fin n)) κ ρ) (orth : Orth n)
    (lstsq : Newton.Lstsq (Fin n)) (K : Nat) (hK : 0 < K) (outs : Nat → Volt (Fin n) → List Outcome) (path : Nat → π)
    (w : Shared (FD n) n) (x : Volt (Fin n)) (hlen : ∀ i, (w.tuners i).solver.target.length = w.ests.length)
    (hfresh : ∀ e ∈ w.ests, ∃ pos eps sym, e = FD.new pos eps sym) (hne : w.ests ≠ []) (k : Nat) (hk : k < n)
    (g : State) (hg : g.g = .ready) (hi : Idle g) (after : List SAct) (ho : HandsOff after) (hlong : 12 ≤ workerTurns after) :
    let M := historyMachine R gradientsKnown (multiHierarchy (fdI orth) lstsq K outs) path
    let start := (fresh w x, (History.Hist.empty : History.Hist (Volt (Fin n)) κ ρ π), 0)
    M.complete (loop M k start) = false →
    ((⟨g, loop M k start⟩ : Session _).run M .logger (.call .start :: after)).1.tuner = loop M (k + 1) start ∧
      Idle ((⟨g, loop M k start⟩ : Session _).run M .logger (.call .start :: after)).1.gui ∧
      iterations ((⟨g, loop M k start⟩ : Session _).run M .logger (.call .start :: after)).2 = 1 := by
  intro M start hc
  have hbad : (M.iterate (loop M k start)).2 = false := by
    have h1 := (fresh_estimators_history_refuted R orth lstsq K hK outs path w x hlen hfresh hne (k + 1) hk).1
    have h2 := loop_watched R gradientsKnown (multiHierarchy (fdI orth) lstsq K outs) path (fresh w x) k
    change (M.iterate (loop M k start)).2 = false
    rw [show loop M k start = _ from h2]
    rw [History.watched] at h1
    rcases hw : History.watched R gradientsKnown (multiHierarchy (fdI orth) lstsq K outs) path (fresh w x) k with ⟨s1, h, os⟩
    rw [hw] at h1
    dsimp only at h1
    simp only [M, historyMachine]
    rcases hit : iterate (multiHierarchy (fdI orth) lstsq K outs) (.ok ()) s1 with ⟨s2, ev, e | u⟩
    · rfl
    · rw [hit] at h1
      dsimp only at h1 ⊢
      have := h1 _ (List.mem_append_right _ (List.mem_singleton.2 rfl))
      rw [this]
      rfl
  have := start_stops_at_exception M ⟨g, loop M k start⟩ hg hi hc hbad after ho hlong
  rw [loop_succ]
  exact this

/-! ## C162: Step -/

/-- The orders of single steps. -/
def stepOrders (as : List Act) : Nat := as.countP fun a => match a with | .call .step => true | _ => false

/-- A step that has been ordered and not begun. -/
def owed (s : State) : Nat :=
  match s.w with
  | .running | .pause1 | .pause2 | .bodyEnd | .dead => 0
  | .loop3 | .body => 1
  | _ => if s.stepped then 1 else 0

/-- **C162** (partial).  Without Start, there are at most as many calls of `iterate` as steps were ordered, for all schedules.  Missing: that there are
as many, see the refutation. -/
theorem steps_at_most_ordered_partial (as : List Act) (hn : ∀ a ∈ as, a ≠ .call .start) :
    iterations (run .logger init as).2 ≤ stepOrders as := by
  have key : ∀ (as : List Act) (s : State), (∀ a ∈ as, a ≠ .call .start) → s.continuous = false →
      iterations (run .logger s as).2 ≤ owed s + stepOrders as := by
    intro as
    induction as with
    | nil => intro s _ _; simp [run, iterations]
    | cons a as ih =>
      intro s hn hc
      have ih' := fun s' => ih s' (fun a' ha' => hn a' (List.mem_cons_of_mem _ ha'))
      rw [run_cons]
      dsimp only
      rw [iterations_append]
      have hs : (step .logger s a).1.continuous = false ∧ iterations (step .logger s a).2 + owed (step .logger s a).1 ≤
          owed s + stepOrders [a] := by
        obtain ⟨stop, continuous, stepped, w, g⟩ := s
        dsimp only at hc
        subst hc
        cases a with
        | worker t ok =>
          cases w <;> cases t <;> cases ok <;> cases stop <;> cases stepped <;>
            simp [step, workerStep, owed, iterations, stepOrders]
        | call op =>
          cases op with
          | start => exact absurd rfl (hn (.call .start) (by simp))
          | step | pause | close =>
            cases g <;> cases w <;> cases stepped <;> simp [step, call, restartThread, owed, iterations, stepOrders]
        | «continue» =>
          cases g <;> cases w <;> cases stepped <;> simp [step, owed, iterations, stepOrders]
      have e : stepOrders (a :: as) = stepOrders as + stepOrders [a] := by
        unfold stepOrders
        rw [← List.singleton_append, List.countP_append, Nat.add_comm]
      rw [e]
      have := ih' _ hs.1
      have := hs.2
      omega
  simpa [owed, init] using key as init hn rfl

/-- **C162** is false: a step that is ordered while the worker executes the previous one, is lost.  Whatever state the flags were in, if the
worker is in `iterate` and was not started continuously, pressing Step once more, and however often until `iterate` returns,
does not lead to another call. -/
theorem step_lost_refuted (s : State) (hw : s.w = .running) (hc : s.continuous = false) (presses : Nat) (ok : Bool) (after : List Act)
    (ha : OnlyWorker after) :
    iterations (run .logger s (List.replicate presses (.call .step) ++ .worker .iterate ok :: after)).2 = 0 := by
  have hafter : ∀ (as : List Act) (q : State), OnlyWorker as → q.continuous = false →
      (q.w = .pause1 ∨ q.w = .pause2 ∨ q.w = .bodyEnd ∨ (q.stepped = false ∧ (q.w = .loop1 ∨ q.w = .loop2 ∨ q.w = .outer ∨
        q.w = .wait1 ∨ q.w = .wait2 ∨ q.w = .wait3 ∨ q.w = .dead))) → iterations (run .logger q as).2 = 0 := by
    intro as
    induction as with
    | nil => intro q _ _ _; simp [run, iterations]
    | cons a as ih =>
      intro q ho hc hq
      have ho' : OnlyWorker as := fun y hy => ho y (List.mem_cons_of_mem _ hy)
      obtain ⟨t, ok, rfl⟩ := ho a (by simp)
      rw [run_cons]
      dsimp only
      rw [iterations_append]
      obtain ⟨stop, continuous, stepped, w, g⟩ := q
      dsimp only at hc hq
      subst hc
      have h1 : iterations (step .logger ⟨stop, false, stepped, w, g⟩ (.worker t ok)).2 = 0 := by
        rcases hq with rfl | rfl | rfl | ⟨rfl, rfl | rfl | rfl | rfl | rfl | rfl | rfl⟩ <;> simp [step, workerStep, iterations]
      rw [h1, Nat.zero_add]
      apply ih _ ho'
      · rcases hq with rfl | rfl | rfl | ⟨rfl, rfl | rfl | rfl | rfl | rfl | rfl | rfl⟩ <;> simp [step, workerStep]
      · rcases hq with rfl | rfl | rfl | ⟨rfl, rfl | rfl | rfl | rfl | rfl | rfl | rfl⟩ <;> cases stop <;> simp [step, workerStep]
  induction presses generalizing s with
  | zero =>
    obtain ⟨stop, continuous, stepped, w, g⟩ := s
    dsimp only at hw hc
    subst hw hc
    rw [List.replicate_zero, List.nil_append, run_cons]
    dsimp only
    rw [iterations_append]
    have : iterations (step .logger ⟨stop, false, stepped, .running, g⟩ (.worker .iterate ok)).2 = 0 := by simp [step, workerStep, iterations]
    rw [this, Nat.zero_add]
    apply hafter after _ ha
    · simp [step, workerStep]
    · cases ok <;> simp [step, workerStep]
  | succ p ih =>
    rw [List.replicate_succ, List.cons_append, run_cons]
    dsimp only
    rw [iterations_append]
    have h0 : iterations (step .logger s (.call .step)).2 = 0 := by
      unfold step
      dsimp only
      split <;> simp [call, iterations]
    rw [h0, Nat.zero_add]
    apply ih
    · unfold step
      dsimp only
      split
      · simp [call, hw]
      · exact hw
    · unfold step
      dsimp only
      split
      · simp [call, hw, hc]
      · exact hc

/-! ## Cases -/

/-- Two calls that count down. -/
example : TunedAfter (⟨fun k => k == 0, fun k => (k - 1, true)⟩ : Machine Nat) 2 2 := by
  refine ⟨?_, rfl⟩
  intro j hj
  obtain rfl | rfl : j = 0 ∨ j = 1 := by omega
  · exact ⟨rfl, rfl⟩
  · exact ⟨rfl, rfl⟩

/-- After Start, Stop and Step were pressed, the interface is ready. -/
example : ((⟨init, 2⟩ : Session Nat).run ⟨fun k => k == 0, fun k => (k - 1, true)⟩ .logger
    [.call .start, .worker, .worker, .worker, .call .pause, .continue, .call .step, .worker]).1.gui.g = .ready := rfl

/-- The second step is ordered in a state that is reached by ordering the first one. -/
example : (run .logger init (.call .step :: List.replicate 8 (.worker .iterate true))).1.w = .running ∧
    (run .logger init (.call .step :: List.replicate 8 (.worker .iterate true))).1.continuous = false := by
  constructor <;> rfl

end Qtune.Gui
