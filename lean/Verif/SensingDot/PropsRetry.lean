import Verif.SensingDot.Model
import Verif.EndToEnd.RetryLemmas

/-! # A `SensingDotTuner` whose evaluators raise -/

namespace Qtune.SensingDot

open Qtune.Tuner

variable {S ι : Type}

theorem assign_index {s p s' : Series} (h : assign s p = .ok s') : s'.index = s.index := by
  unfold assign at h
  split at h
  · simp only [Except.ok.injEq] at h
    subst h
    simp [Series.index, Function.comp_def]
  · cases h

theorem assign_twice {s p s' : Series} (h : assign s p = .ok s') : assign s' p = .ok s' := by
  have hi := assign_index h
  unfold assign at h ⊢
  split at h
  · rename_i hc
    rw [hi, if_pos hc]
    simp only [Except.ok.injEq] at h ⊢
    subst h
    rw [List.map_map]
    apply List.map_congr_left
    intro e _
    simp only [Function.comp]
    split <;> simp
  · cases h

theorem assignVariances_twice {s p v s' : Series} (h : assignVariances s p v = .ok s') :
    assignVariances s' p v = .ok s' := by
  unfold assignVariances at h ⊢
  split at h
  · cases h
  · exact assign_twice h

/-- **C144**, `SensingDotTuner`.  One of the cheap evaluators raises: `is_tuned` raises and has no effect. -/
theorem cheap_evaluator_raises (I : SolverI S ι) (cheap exp : List Outcome) (v : Volt ι) (t : SDTuner S ι) (k : Nat)
    (e : PyErr) :
    ∃ e', isTuned I (cheap.take k ++ [.error e]) exp v t = (t, [.cheap], .error e') := by
  obtain ⟨e', h⟩ := EndToEnd.collect_fails cheap k e
  exact ⟨e', by simp [isTuned, evaluate, h]⟩

/-- **C144**, `SensingDotTuner`.  One of the expensive evaluators raises: either they are not called, and the call is
as without the fault, or `is_tuned` raises and the next call of `is_tuned` has the effects and the result that the first call would have
had. -/
theorem expensive_evaluator_raises (I : SolverI S ι) (cheap exp : List Outcome) (v : Volt ι) (t : SDTuner S ι)
    (k : Nat) (e : PyErr) :
    isTuned I cheap (exp.take k ++ [.error e]) v t = isTuned I cheap exp v t ∨
    (∃ e', (isTuned I cheap (exp.take k ++ [.error e]) v t).2.2 = .error e') ∧
      isTuned I cheap exp v (isTuned I cheap (exp.take k ++ [.error e]) v t).1 = isTuned I cheap exp v t := by
  obtain ⟨e', hexp⟩ := EndToEnd.collect_fails exp k e
  have hexp' : evaluate (exp.take k ++ [.error e]) = .error e' := by simp [evaluate, hexp]
  generalize exp.take k ++ [.error e] = exp' at hexp'
  rcases hc : evaluate cheap with ec | ⟨p, vars⟩
  · left
    simp [isTuned, hc]
  · rcases hl : assign t.lastValues (rescaleValues (I.target t.solver) p) with el | lv
    · left
      simp [isTuned, hc, hl]
    · rcases hv : assignVariances t.lastVariances (rescaleValues (I.target t.solver) p)
        (rescaleVariances (I.target t.solver) vars) with ev | lvar
      · left
        simp [isTuned, hc, hl, hv]
      · by_cases hn : (rescaleValues (I.target t.solver) p).any (fun e => e.2.isNone) = true
        · left
          simp only [isTuned, hc, hl, hv, hn, if_true]
        · by_cases hm : anyLe (I.target t.solver) Row.minimum (rescaleValues (I.target t.solver) p) = true
          · by_cases hcost : anyLe (I.target t.solver) Row.costThreshold (rescaleValues (I.target t.solver) p) = true
            · right
              have h1 : isTuned I cheap exp' v t =
                  ({ t with lastVoltage := v, lastValues := lv, lastVariances := lvar, lastFailed := false,
                            cheapOnly := false }, [.cheap, .expensive], .error e') := by
                simp only [isTuned, hc, hl, hv, hn, hm, maybeExpensive, hcost, hexp', if_true]
                rfl
              rw [h1]
              refine ⟨⟨e', rfl⟩, ?_⟩
              have hl' := assign_twice hl
              have hv' := assignVariances_twice hv
              simp only [isTuned, hc, hl, hv, hl', hv', hn, hm, maybeExpensive, hcost, if_true]
              rfl
            · left
              simp only [isTuned, hc, hl, hv, hn, hm, maybeExpensive, hcost, if_true]
              rfl
          · left
            simp only [isTuned, hc, hl, hv, hn, hm]
            rfl

/-- The expensive evaluator raises: the signal `1` is below the minimum `2` and below the cost threshold. -/
example (S : Type) (I : SolverI S (Fin 1)) (s : S)
    (hT : I.target s = [⟨"signal", none, some 2, none, none, some 3, some 1⟩]) :
    (isTuned I [.ok ([("signal", some 1)], [("signal", some 1)])] [.error .valueError] (fun _ => some 5)
      ⟨s, [], fun _ => none, [("signal", none)], [("signal", none)], false, [], true⟩).2.2 = .error .valueError := by
  have h1 : anyLe (I.target s) Row.minimum (rescaleValues (I.target s) [("signal", some 1)]) = true := by
    simp [hT, anyLe, rescaleValues, factor, Target.row?, Val.LE, Val.div]
  have h2 : anyLe (I.target s) Row.costThreshold (rescaleValues (I.target s) [("signal", some 1)]) = true := by
    simp [hT, anyLe, rescaleValues, factor, Target.row?, Val.LE, Val.div]
  simp [hT, rescaleValues, factor, Target.row?, Val.div] at h1 h2
  simp [isTuned, maybeExpensive, evaluate, collect, sortIndex, assign, assignVariances, rescaleValues,
    rescaleVariances, factor, Target.row?, hT, Series.index, Series.select, Val.div, Val.mul, h1, h2]

end Qtune.SensingDot
