import Verif.EndToEnd.SensedSpec
import Verif.Evaluator.Dot2DProps

/-!
# Specification: a sensing dot whose position is found by two-dimensional scans

The expensive evaluator of the tuner is a `SensingDot2D` (evaluator.py:668-768) in the model of `Evaluator/Dot2DModel`.
The cheap evaluator is the user's; it measures one parameter, the contrast.
-/

namespace Qtune.EndToEnd

open Qtune.Tuner Qtune.Gradient Qtune.Evaluator

/-- A device with a sensing dot. -/
structure ScannedDot (n : Nat) where
  gateName : Fin n → String
  /-- the gates of the sensing dot -/
  gate1 : Fin n
  gate2 : Fin n
  /-- the signal that is measured in scans -/
  signal : Vec n → ℝ
  /-- the parameter of the cheap evaluator -/
  contrastName : String
  contrast : Vec n → ℝ
  /-- entries of the target -/
  minimum : ℝ
  costThreshold : ℝ
  /-- options of the scan -/
  range : ℝ
  lines : Nat
  points : Nat
  rising : Bool
  /-- the polynomial that is fitted to a line -/
  fit : List ℝ → List ℝ → Except PyErr (ℝ → ℝ)

variable {n : Nat}

/-- The voltages at the point `(i, j)` of the scan around `q`. -/
noncomputable def ScannedDot.at (D : ScannedDot n) (q : Vec n) (i j : Nat) : Vec n :=
  Function.update (Function.update q D.gate1 (scanPoint (q D.gate1) D.range D.lines i)) D.gate2
    (scanPoint (q D.gate2) D.range D.points j)

/-- How much the signal changes in the wanted direction from the voltages `q` to the next point of a line: it falls for
a rising flank (see C94), and rises otherwise. -/
noncomputable def ScannedDot.flank (D : ScannedDot n) (q : Vec n) : ℝ :=
  (D.signal (Function.update q D.gate2 (q D.gate2 + 2 * D.range / (D.points - 1))) - D.signal q) * if D.rising then -1 else 1

/-- What is assumed of the device, for fits with an error of `ε` at most. -/
structure ScannedDot.Valid (D : ScannedDot n) (ε S : ℝ) : Prop where
  names : Function.Injective D.gateName
  gates : D.gate1 ≠ D.gate2
  contrastName : D.contrastName ≠ "position_" ++ D.gateName D.gate1 ∧ D.contrastName ≠ "position_" ++ D.gateName D.gate2
  /-- the expensive evaluation is made whenever the contrast is too small -/
  threshold : D.minimum ≤ D.costThreshold
  lines : 2 ≤ D.lines
  points : 25 ≤ D.points
  /-- a polynomial can be fitted to any line of any scan, with an error of `ε` at most -/
  fit : ∀ q, ∀ i < D.lines, ∃ f,
    D.fit ((List.range D.points).map fun j => scanPoint (q D.gate2) D.range D.points j)
      ((List.range D.points).map fun j => D.signal (D.at q i j)) = .ok f ∧
    ∀ j < D.points, |f (scanPoint (q D.gate2) D.range D.points j) - D.signal (D.at q i j)| ≤ ε
  /-- the contrast is large enough on flanks that are steep enough -/
  steep : ∀ q, S ≤ D.flank q → D.minimum < D.contrast q
  /-- wherever the dot is, the scan contains such a flank, apart from its borders -/
  visible : ∀ q, ∃ i < D.lines, ∃ j, InnerOfLine D.points j ∧ S + 4 * ε ≤ D.flank (D.at q i j)

/-- The evaluator: its options and attributes before the evaluation (evaluator.py:675-697). -/
noncomputable def ScannedDot.evaluator (D : ScannedDot n) : SD2 :=
  ⟨D.gateName D.gate1, D.gateName D.gate2, D.range, D.rising, none, none, none, []⟩

/-- The scan that the experiment performs with the options of the evaluator, when the gates have the voltages `q`
(experiment.py:42-48). -/
noncomputable def ScannedDot.scanAt (D : ScannedDot n) (q : Vec n) (ev : SD2) : Except PyErr Grid :=
  match ev.center with
  | none => .error .typeError
  | some (c1, c2) => .ok ⟨D.lines, D.points, fun i j => D.signal (Function.update (Function.update q D.gate1
      (scanPoint c1 ev.range D.lines i)) D.gate2 (scanPoint c2 ev.range D.points j))⟩

/-- The voltages that the experiment returns (experiment.py:71). -/
def ScannedDot.reading (D : ScannedDot n) (q : Vec n) : List (String × ℝ) := List.ofFn fun j => (D.gateName j, q j)

/-- `SensingDot2D.evaluate` (evaluator.py:699-717) on the device. -/
noncomputable def ScannedDot.evaluateAt (D : ScannedDot n) (q : Vec n) :
    Except PyErr (List (String × ℝ) × List (String × ℝ)) :=
  (D.evaluator.evaluate D.fit (.ok (D.reading q)) (.ok (D.reading q)) (D.scanAt q)).2

/-- A result as a pair of Series. -/
def asSeries (l : List (String × ℝ)) : Series := l.map fun e => (e.1, some e.2)

/-- The sensing dot and the set up of its tuner, for C151: the positions that the scan finds are forwarded to the gates
of the dot. -/
noncomputable def ScannedDot.sensor (D : ScannedDot n) : Sensor n where
  gateName := D.gateName
  gates := [D.gate1, D.gate2]
  target := [⟨D.contrastName, none, some D.minimum, none, none, some D.costThreshold, some 1⟩]
  mapping := [("position_" ++ D.gateName D.gate1, some (D.gateName D.gate1)),
    ("position_" ++ D.gateName D.gate2, some (D.gateName D.gate2))]
  cheap := fun q => ([(D.contrastName, some (D.contrast q))], [(D.contrastName, some 1)])
  expensive := fun q => match D.evaluateAt q with
    | .ok (values, errors) => (asSeries values, asSeries errors)
    | .error _ => ([], [])
  cheapOuts := fun v => [.ok ([(D.contrastName, some (D.contrast fun j => (v j).getD 0))], [(D.contrastName, some 1)])]
  expensiveOuts := fun v => [match D.evaluateAt fun j => (v j).getD 0 with
    | .ok (values, errors) => .ok (asSeries values, asSeries errors)
    | .error e => .error e]

end Qtune.EndToEnd
