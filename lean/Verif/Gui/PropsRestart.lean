import Verif.Gui.Props

/-! # C63: a step ordered when the worker has ended -/

namespace Qtune.Gui

/-- C63: a step ordered after the thread of the worker has ended, whatever the flags were then, starts the thread again and exactly one `iterate()`. -/
theorem step_after_end_exactly_one (s : State) (hg : s.g = .ready) (hw : s.w = .dead) (as : List Act)
    (ha : ∀ a ∈ as, ∃ ok, a = .worker .iterate ok) (hlong : 8 ≤ as.length) :
    iterations (run .logger s (.call .step :: as)).2 = 1 := by
  have hs : step .logger s (.call .step) = ({ restartThread s with stepped := true }, []) := by simp [step, call, hg, hw]
  cases as with
  | nil => simp at hlong
  | cons a as =>
    obtain ⟨ok, rfl⟩ := ha a (by simp)
    have h1 : step .logger { restartThread s with stepped := true } (.worker .iterate ok) = ({ restartThread s with stepped := true, w := .wait1 }, []) := by
      simp [step, workerStep, restartThread]
    rw [run_cons, hs, run_cons, h1]
    exact ordered_run as rfl rfl rfl (by simp [distance]) (fun a h => ha a (by simp [h])) (by simp only [List.length_cons] at hlong; simp only [distance]; omega)

/-- The worker ended in continuous mode. -/
example : iterations (run .logger ⟨true, true, false, .dead, .ready⟩ (.call .step :: List.replicate 20 (.worker .iterate true))).2 = 1 :=
  step_after_end_exactly_one _ rfl rfl _ (fun _ h => ⟨true, List.eq_of_mem_replicate h⟩) (by simp)

end Qtune.Gui
