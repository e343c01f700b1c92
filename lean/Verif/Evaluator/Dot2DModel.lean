import Verif.Evaluator.Sd1dModel

/-!
# Model of SensingDot2D.evaluate (evaluator.py 699-717)

Simplifications: numbers are real, the data contain no NaN, and a measurement returns a two-dimensional array.
-/

namespace Qtune.Evaluator

open Classical
open Fit (linspaceList)

/-- A two-dimensional array with `height` rows of the length `width`. -/
structure Grid where
  height : Nat
  width : Nat
  entry : Nat → Nat → ℝ

/-- Row `i` of an array. -/
def Grid.row (g : Grid) (i : Nat) : List ℝ := (List.range g.width).map (g.entry i)

/-- The options of the measurement of a `SensingDot2D` and its attributes (evaluator.py:673-697); `none` stands for
`None`, an empty `newVoltages` for an empty series. -/
structure SD2 where
  gate1 : String
  gate2 : String
  range : ℝ
  risingFlank : Bool
  center : Option (ℝ × ℝ)
  rawX : Option (List ℝ × List ℝ)
  rawY : Option Grid
  newVoltages : List (String × ℝ)

/-- Lines 743-748 of evaluator.py: the differences of the polynomials that are fitted to the lines.  `fit xs ys` is the
polynomial of `polyfit`; the first line that cannot be fitted raises. -/
noncomputable def slopesOfLines (fit : List ℝ → List ℝ → Except PyErr (ℝ → ℝ)) (x1 : List ℝ) (lines : List (List ℝ)) :
    Except PyErr (List (List ℝ)) :=
  lines.mapM fun line => match fit x1 line with
    | .error e => .error e
    | .ok f => .ok (diff (x1.map f))

/-- `SensingDot2D.process_raw_data` (evaluator.py:741-762) for the squeezed data: without two dimensions `shape[1]` raises
`IndexError`, and `np.zeros` raises `ValueError` for a negative width. -/
noncomputable def SD2.process (fit : List ℝ → List ℝ → Except PyErr (ℝ → ℝ)) (x0 x1 : List ℝ) (g : Grid) (ev : SD2) :
    Except PyErr (List (String × ℝ) × List (String × ℝ)) :=
  if g.height = 1 ∨ g.width = 1 then .error .indexError
  else if g.width = 0 then .error .valueError
  else match slopesOfLines fit x1 ((List.range g.height).map g.row) with
    | .error e => .error e
    | .ok slopes => match steepest2D ev.risingFlank x0 x1 slopes with
      | .error e => .error e
      | .ok (a, b) =>
        .ok ([("position_" ++ ev.gate1, a), ("position_" ++ ev.gate2, b)],
          [("position_" ++ ev.gate1, 1 / 10000), ("position_" ++ ev.gate2, 1 / 10000)])

/-- `SensingDot2D.evaluate` (evaluator.py:699-717): `read1` and `read2` are the results of the two calls of
`read_gate_voltages`, `measure` the result of the measurement, as a function of the evaluator whose options it uses. -/
noncomputable def SD2.evaluate (fit : List ℝ → List ℝ → Except PyErr (ℝ → ℝ))
    (read1 read2 : Except PyErr (List (String × ℝ))) (measure : SD2 → Except PyErr Grid) (ev : SD2) :
    SD2 × Except PyErr (List (String × ℝ) × List (String × ℝ)) :=
  match read1 with
  | .error e => (ev, .error e)
  | .ok v1 => match v1.lookup ev.gate1 with
    | none => (ev, .error .keyError)
    | some c1 => match read2 with
      | .error e => (ev, .error e)
      | .ok v2 => match v2.lookup ev.gate2 with
        | none => (ev, .error .keyError)
        | some c2 =>
          let ev := { ev with center := some (c1, c2) }
          match measure ev with
          | .error e => (ev, .error e)
          | .ok g =>
            let x0 := linspaceList (c1 - ev.range) (c1 + ev.range) g.height
            let x1 := linspaceList (c2 - ev.range) (c2 + ev.range) g.width
            let ev := { ev with rawY := some g, rawX := some (x0, x1) }
            match ev.process fit x0 x1 g with
            | .error e => (ev, .error e)
            | .ok (values, errors) => ({ ev with newVoltages := values }, .ok (values, errors))

end Qtune.Evaluator
