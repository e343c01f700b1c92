import Verif.TestExperiment.Props

/-! # C102: what the caller's Series becomes -/

namespace Qtune.TestExperiment

/-- **C102** is false for all Series: every call that sets a gate to another voltage changes the Series that the caller gave to the constructor, and afterwards it has
the new voltage. -/
theorem initial_voltages_always_refuted (initial new : Series) (hn : new.index.Nodup) (g : String) (x : Val) (h : new.lookup g = some x) (hne : initial.lookup g ≠ some x) :
    (callersSeries (set (init initial) new).1).lookup g = some x ∧ callersSeries (set (init initial) new).1 ≠ initial := by
  have e : (callersSeries (set (init initial) new).1).lookup g = some x := by
    show (new.foldl (fun v p => assign v p.1 p.2) initial).lookup g = some x
    rw [lookup_foldl new hn, h]
  exact ⟨e, fun heq => hne (by rw [← heq]; exact e)⟩

example : callersSeries (set (init [("a", some 0), ("b", some 2)]) [("b", some 1)]).1 ≠ [("a", some 0), ("b", some 2)] :=
  (initial_voltages_always_refuted [("a", some 0), ("b", some 2)] [("b", some 1)] (by simp [Series.index]) "b" (some 1) (by simp)
    (by simp [List.lookup])).2

end Qtune.TestExperiment
