import Verif.Gui.Props
import Verif.Gui.RawProps
import Mathlib.Tactic.SplitIfs

/-!
# `close()` returns when the worker has ended (C64), and the first click in a window with raw data (C145)
-/

namespace Qtune.Gui

/-- After `close()` has returned the worker has ended. -/
def ClosedIsDead (s : State) : Prop := s.g = .closed → s.w = .dead

theorem closedIsDead_step (lg : Logger) (s : State) (a : Act) (h : ClosedIsDead s) : ClosedIsDead (step lg s a).1 := by
  obtain ⟨stop, continuous, stepped, w, g⟩ := s
  unfold ClosedIsDead at h ⊢
  cases a with
  | worker t ok =>
    intro hg
    have hg' : g = .closed := by
      cases w <;> cases t <;> simpa [step, workerStep] using hg
    have hw : w = .dead := h hg'
    subst hw
    rfl
  | call op =>
    cases g <;> cases op <;> cases lg <;> simp [step, call] at h ⊢ <;> first | exact h | (split_ifs <;> simp_all [restartThread])
  | «continue» =>
    cases g <;> cases w <;> simp_all [step]

theorem closedIsDead_run (lg : Logger) (as : List Act) : ∀ s, ClosedIsDead s → ClosedIsDead (run lg s as).1 := by
  induction as with
  | nil => intro s h; exact h
  | cons a as ih =>
    intro s h
    exact ih _ (closedIsDead_step lg s a h)

/-- The thread of the user interface between `close()` and its return. -/
theorem joining_run (as : List Act) : ∀ s : State, s.g = .joining ∨ s.g = .closed →
    (run .logger s as).1.g = .joining ∨ (run .logger s as).1.g = .closed := by
  induction as with
  | nil => intro s h; exact h
  | cons a as ih =>
    intro s h
    apply ih
    obtain ⟨stop, continuous, stepped, w, g⟩ := s
    cases a with
    | worker t ok => cases w <;> cases t <;> simpa [step, workerStep] using h
    | call op => rcases h with h | h <;> simp only at h <;> subst h <;> simp [step]
    | «continue» => rcases h with h | h <;> simp only at h <;> subst h <;> cases w <;> simp [step]

theorem run_append (lg : Logger) (as bs : List Act) : ∀ s : State,
    (run lg s (as ++ bs)).1 = (run lg (run lg s as).1 bs).1 := by
  induction as with
  | nil => intro s; rfl
  | cons a as ih => intro s; exact ih _

/-- C64 (partial): `close()` does not return while the worker lives, whatever happens before and after.  It returns if the worker was not
in continuous mode and makes at least nine steps afterwards, as soon as `join` looks at the worker again.  Missing: the continuous mode,
see `close_refuted`. -/
theorem close_returns_partial :
    (∀ lg as, (run lg init as).1.g = .closed → (run lg init as).1.w = .dead) ∧
    ∀ (s : State), s.g = .ready → s.continuous = false → ∀ as, 9 ≤ workerSteps as →
      (run .logger s (.call .close :: (as ++ [.continue]))).1.g = .closed := by
  refine ⟨fun lg as => closedIsDead_run lg as init (by simp [ClosedIsDead, init]), fun s hg hc as h9 => ?_⟩
  have hd := (close_partial s hg hc as).2 h9
  have hj := joining_run (.call .close :: as) s
  have e : (Act.call .close :: (as ++ [Act.continue])) = (Act.call .close :: as) ++ [Act.continue] := rfl
  rw [e, run_append]
  have hs : step .logger s (.call .close) = ({ s with stop := true, g := .joining }, []) := by simp [step, call, hg]
  have hj : (run .logger s (.call .close :: as)).1.g = .joining ∨ (run .logger s (.call .close :: as)).1.g = .closed := by
    have : (run .logger s (.call .close :: as)).1 = (run .logger (step .logger s (.call .close)).1 as).1 := rfl
    rw [this, hs]
    exact joining_run as _ (Or.inl rfl)
  generalize (run .logger s (.call .close :: as)).1 = u at hd hj
  obtain ⟨stop, continuous, stepped, w, g⟩ := u
  simp only at hd hj
  subst hd
  rcases hj with rfl | rfl <;> simp [run, step]

/-- A new worker meets the hypotheses. -/
example : init.g = .ready ∧ init.continuous = false ∧ 9 ≤ workerSteps (List.replicate 9 (.worker .iterate true)) := by decide

namespace Raw

open Qtune.Gui.Reload

variable {δ : Type}

/-- **C145** is false from the beginning: a new window displays the number 0, and the first click shows the data of the last row. -/
theorem new_window_refuted (data : List (String → Option δ)) (e : String) (r : String → Option δ) (hr : data.getLast? = some r) :
    (init : Window δ).shown = 0 ∧ (init : Window δ).picture = none ∧ (click e data init).shown = 0 ∧
      (click e data init).picture = some (e, r e) := by
  have h : pyGet data (0 - 1) = some r := by
    have hne : data ≠ [] := by rintro rfl; simp at hr
    have hpos : 0 < data.length := List.length_pos_iff.2 hne
    unfold pyGet
    rw [List.getLast?_eq_getElem?] at hr
    rw [if_neg (by omega)]
    rw [if_pos (by omega), ← hr]
    congr 1
    omega
  refine ⟨rfl, rfl, ?_, ?_⟩ <;> simp only [click, init, h]

example : [fun _ => some 1, fun _ : String => some (2 : Nat)].getLast? = some fun _ => some 2 := rfl

end Raw

end Qtune.Gui
