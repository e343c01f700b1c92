import Verif.Evaluator.QqdModel
import Verif.Evaluator.FitModel

/-!
# Model of SensingDot1D (evaluator.py 580-657)

Simplifications: the number of points is a natural number, numbers are real and the data contain no NaN.
-/

namespace Qtune.Evaluator

open Classical
open Fit (pyIndex linspaceList)

/-- The attributes of a `SensingDot1D` and the options of its measurement that `evaluate` uses
(evaluator.py:586-613); `none` stands for `None`. -/
structure SD1 where
  sweepingGate : String
  risingFlank : Bool
  gate : String
  center : Option ℝ
  range : ℝ
  nPoints : Nat
  rawX : Option (List ℝ)
  rawY : Option (List ℝ)
  currentSignal : Option ℝ
  optimalSignal : Option ℝ
  optimalPosition : Option ℝ

/-- The functions of numpy that the evaluation uses: `polyfit` with degree 10, and what the attribute lookup
`np.polynomial.poly1d` gives, which is an `AttributeError` in the released versions of numpy.
evaluator.py:641-642. -/
structure Polynomials where
  polyfit : List ℝ → List ℝ → Except PyErr (List ℝ)
  poly1d : Except PyErr (List ℝ → ℝ → ℝ)

/-- `np.diff`.  evaluator.py:643. -/
def diff (l : List ℝ) : List ℝ := (List.range (l.length - 1)).map fun (i : Nat) => l.getD (i + 1) 0 - l.getD i 0

/-- An index into an array (evaluator.py:653). -/
inductive Index where
  | int (i : Int)
  | float (x : ℝ)

/-- `array[i]`: numpy accepts integers only. -/
def getIndex (l : List ℝ) : Index → Except PyErr ℝ
  | .int i => pyIndex l i
  | .float _ => .error .indexError

/-- `0.5 * self.measurements[0].options['N_points']`, a float.  evaluator.py:653. -/
noncomputable def middleIndex (n : Nat) : Index := .float (1 / 2 * n)

/-- `SensingDot1D.process_raw_data` (evaluator.py:638-655): the evaluator afterwards and the signals and the position
that are returned. -/
noncomputable def SD1.process (P : Polynomials) (xs ys : List ℝ) (ev : SD1) : SD1 × Except PyErr (ℝ × ℝ × ℝ) :=
  match P.polyfit xs ys with
  | .error e => (ev, .error e)
  | .ok coef =>
    match P.poly1d with
    | .error e => (ev, .error e)
    | .ok poly1d =>
      let slopes := diff (xs.map (poly1d coef.reverse))
      let cutoff := xs.length / 16
      let best := fun l => if ev.risingFlank then Signal.argmax l else Signal.argmin l
      match best (cut cutoff slopes) with
      | none => (ev, .error .valueError)
      | some k =>
        match best slopes with
        | none => (ev, .error .valueError)
        | some m =>
          let ev := { ev with optimalSignal := some (slopes.getD m 0) }
          match xs[k + cutoff]? with
          | none => (ev, .error .indexError)
          | some position =>
            let ev := { ev with optimalPosition := some position }
            match getIndex slopes (middleIndex ev.nPoints) with
            | .error e => (ev, .error e)
            | .ok current =>
              ({ ev with currentSignal := some current }, .ok (current, slopes.getD m 0, position))

/-- `SensingDot1D.evaluate` (evaluator.py:615-636): `voltages` is the result of `read_gate_voltages`, `measure` the
result of the measurement, as a function of the evaluator whose options it uses. -/
noncomputable def SD1.evaluate (P : Polynomials) (voltages : Except PyErr (List (String × ℝ)))
    (measure : SD1 → Except PyErr (List ℝ)) (ev : SD1) : SD1 × Except PyErr (List (String × ℝ) × List (String × ℝ)) :=
  let ev := { ev with gate := ev.sweepingGate }
  match voltages with
  | .error e => (ev, .error e)
  | .ok v =>
    match v.lookup ev.sweepingGate with
    | none => (ev, .error .keyError)
    | some c =>
      let ev := { ev with center := some c }
      match measure ev with
      | .error e => (ev, .error e)
      | .ok data =>
        let xs := linspaceList (c - ev.range) (c + ev.range) ev.nPoints
        let ev := { ev with rawY := some data, rawX := some xs }
        match ev.process P xs data with
        | (ev, .error e) => (ev, .error e)
        | (ev, .ok (current, optimal, position)) =>
          let p := "position_" ++ ev.sweepingGate
          (ev, .ok ([(p, position), ("current_signal", current), ("optimal_signal", optimal)],
            [(p, 1 / 10000), ("current_signal", current / 5), ("optimal_signal", optimal / 5)]))

end Qtune.Evaluator
