import Verif.Tuner.Props

/-! # C17: an evaluator that raises -/

namespace Qtune.Tuner

variable {S ι : Type}

theorem collect_first_error (pre : List (Series × Series)) (e : PyErr) (rest : List Outcome) :
    collect (pre.map .ok ++ .error e :: rest) = .error e := by
  induction pre with
  | nil => rfl
  | cons a pre ih => simp only [List.map_cons, List.cons_append, collect, ih]

/-- **C17 for exceptions.**  If an evaluator raises, then `is_tuned` raises the exception of the first one that does, later evaluators do not matter,
and the tuner has only noted the voltages: solver, estimators, lists of voltages and the last values stay as they are. -/
theorem raising_evaluator_contained (I : SolverI S ι) (pre : List (Series × Series)) (e : PyErr) (rest : List Outcome) (v : Volt ι)
    (t : SubsetTuner S ι) (hq : t.queued = 0) :
    isTuned I (pre.map .ok ++ .error e :: rest) v t = ({ t with lastVoltage := v }, .error e) := by
  simp only [isTuned, hq, ne_eq, not_true_eq_false, if_false, evaluate, collect_first_error]

/-- `is_tuned` never returns a result of evaluators of which one raised. -/
theorem result_needs_all_evaluators (I : SolverI S ι) (outs : List Outcome) (v : Volt ι) (t t' : SubsetTuner S ι) (hq : t.queued = 0) (res : Bool)
    (h : isTuned I outs v t = (t', .ok res)) (o : Outcome) (ho : o ∈ outs) : ∃ r, o = .ok r := by
  cases o with
  | ok r => exact ⟨r, rfl⟩
  | error e =>
    exfalso
    have hsplit : ∀ outs : List Outcome, .error e ∈ outs → ∃ (pre : List (Series × Series)) (e' : PyErr) (rest : List Outcome),
        outs = pre.map .ok ++ .error e' :: rest := by
      intro outs ho
      induction outs with
      | nil => simp at ho
      | cons a outs ih =>
        cases a with
        | error e' => exact ⟨[], e', outs, rfl⟩
        | ok r =>
          obtain ⟨pre, e', rest, hp⟩ := ih (by simpa using ho)
          exact ⟨r :: pre, e', rest, by rw [hp]; rfl⟩
    obtain ⟨pre, e', rest, hp⟩ := hsplit outs ho
    rw [hp, raising_evaluator_contained I pre e' rest v t hq] at h
    simp at h

/-- The first evaluator measures, the second raises. -/
example : isTuned (constSolver badTarget) [.ok ([("a", some 0)], [("a", some 0)]), .error (.runtimeError "fit"), .error .typeError] (fun _ => some 2)
    (newTuner badTarget) = ({ newTuner badTarget with lastVoltage := fun _ => some 2 }, .error (.runtimeError "fit")) :=
  raising_evaluator_contained _ [([("a", some 0)], [("a", some 0)])] _ _ _ _ rfl

end Qtune.Tuner
