import Verif.Evaluator.FitModel

/-! # C115: the data that InterDotTCByLineScan keeps -/

namespace Qtune.Evaluator.Fit

/-- **C115**, first half, for `InterDotTCByLineScan`: the stored data is the data that was measured, whatever its shape, whether the fit succeeds,
fails or raises.  If the measurement raises, the evaluator keeps what it had. -/
theorem data_stored_partial (N : Numerics) (ev : InterDot) :
    (∀ data, (InterDot.evaluate N (.ok data) ev).1.rawY = .array data) ∧
    ∀ e, InterDot.evaluate N (.error e) ev = (ev, .error e) := by
  refine ⟨fun data => ?_, fun _ => rfl⟩
  have h : ∀ ev : InterDot, (InterDot.finish N ev).1.rawY = ev.rawY := by
    intro ev
    unfold InterDot.finish
    split <;> rfl
  cases data with
  | more => rfl
  | d1 l => exact h _
  | d2 w rows => exact h _

/-- Data of three dimensions is stored, too. -/
example (N : Numerics) (ev : InterDot) : (InterDot.evaluate N (.ok .more) ev).1.rawY = .array .more :=
  (data_stored_partial N ev).1 _

end Qtune.Evaluator.Fit
