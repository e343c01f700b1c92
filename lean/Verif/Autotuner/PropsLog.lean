import Verif.Autotuner.Props

/-! # The log of the autotuner is true (used in C01, C02, C03, C04, C10)

The other theorems talk about the log of events.  Here it is shown that the log is the
sequence of all calls that were made on the tuners and on the experiment. -/

namespace Qtune.Autotuner

variable {W X V P C : Type}

theorem Replays.append {H : Hierarchy W X V P C} {w x w₁ x₁ w₂ x₂} {l l' : List (Event W V P)}
    (h : Replays H w x l w₁ x₁) (h' : Replays H w₁ x₁ l' w₂ x₂) : Replays H w x (l ++ l') w₂ x₂ := by
  induction h with
  | nil => exact h'
  | cons he _ ih => exact .cons he (ih h')

theorem Replays.single {H : Hierarchy W X V P C} {w x w₁ x₁} {e : Event W V P}
    (h : e.Happened H w x w₁ x₁) : Replays H w x [e] w₁ x₁ := .cons h .nil

theorem replays_finish {H : Hierarchy W X V P C} (save : Except PyErr Unit) (s' : State W X V)
    {e : Event W V P} {w x} (h : e.Happened H w x s'.tuners s'.expt) :
    Replays H w x (finish save s' e).2.1 (finish save s' e).1.tuners (finish save s' e).1.expt := by
  cases save with
  | error err => exact .single h
  | ok u => exact .cons h (.single ⟨rfl, rfl, rfl⟩)

theorem replays_iterate (H : Hierarchy W X V P C) (save : Except PyErr Unit) (s : State W X V) :
    Replays H s.tuners s.expt (iterate H save s).2.1 (iterate H save s).1.tuners
      (iterate H save s).1.expt := by
  fun_cases iterate H save s
  all_goals first
    | exact .nil
    | exact .single ⟨by simp_all, by simp_all, rfl⟩
    | exact .single ⟨rfl, by simp_all⟩
    | exact .single ⟨rfl, by simp_all, rfl⟩
    | exact replays_finish _ _ ⟨by simp_all, by simp_all, rfl⟩
    | exact replays_finish _ _ ⟨rfl, by simp_all⟩
    | exact replays_finish _ _ ⟨rfl, by simp_all, rfl⟩

/-- **C01, C02, C03, C04, C10.** Whatever calls are made, the log is the complete list of what was
done to the tuners and to the experiment: starting from their first states, the calls named in the
log, with the arguments and results named there, lead to their final states.  Tuners are always
evaluated at the voltages that the experiment shows, are told their tuned parameters, and no voltage
that is written is NaN. -/
theorem log_truthful (H : Hierarchy W X V P C) (s : State W X V) (ops : List (Op X C)) :
    Replays H s.tuners s.expt (run H s ops).2 (run H s ops).1.tuners (run H s ops).1.expt := by
  induction ops generalizing s with
  | nil => exact .nil
  | cons op ops ih =>
    refine Replays.append (w₁ := (step H s op).1.tuners) (x₁ := (step H s op).1.expt) ?_ (ih _)
    cases op with
    | iterate save => exact replays_iterate H save s
    | restart => exact .single ⟨⟨_, rfl⟩, rfl⟩
    | manual x => exact .single rfl
    | changeTargets c =>
      show Replays H _ _ (changeTargets H c s).2.1 (changeTargets H c s).1.tuners
        (changeTargets H c s).1.expt
      unfold changeTargets
      by_cases h : H.len < H.nChanges c
      · rw [if_pos h]
        exact .single ⟨rfl, c, Or.inl ⟨h, rfl, rfl⟩⟩
      · rw [if_neg h]
        split
        · rename_i w e heq
          exact .single ⟨rfl, c, Or.inr ⟨by omega, _, heq, by simp⟩⟩
        · rename_i w heq
          exact .single ⟨rfl, c, Or.inr ⟨by omega, _, heq, by simp⟩⟩

/-- A log with evaluations, suggestions and writes. -/
example : (run toy (fresh 0 0) (List.replicate 3 it)).2.length = 6 := by decide

end Qtune.Autotuner
