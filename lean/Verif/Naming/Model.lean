import Verif.Target.Model
import Verif.Autotuner.Model

/-!
# Gate and parameter names in the autotuner, and the effect of `restart` on positions

`Autotuner.tuned_parameters` (autotuner.py:141-149), `Autotuner.ready_to_tune`
(autotuner.py:161-206), the setters of `ParameterTuner.last_voltages`
(parameter_tuner.py:105-111), `Solver.current_position` (solver.py:88-91) and
`GradientEstimator.current_position` (gradient.py:45-48), and the `restart` methods
(autotuner.py:293-300, parameter_tuner.py:181-183, solver.py:106-107, 260-263,
gradient.py:68-69).
-/

namespace Qtune.Naming

open Qtune.Autotuner (Hierarchy)

/-! ## Parameters of the lower tuners -/

/-- `Autotuner.tuned_parameters` (autotuner.py:141-149) for the targets of the hierarchy and
the current index.  Simplification: a Python set is a list here, compared by its elements;
an index beyond the hierarchy, which raises `IndexError`, is cut off. -/
def tunedParameters (Ts : List Target) (index : Nat) : List String :=
  (Ts.take index).foldl (fun acc T => acc ++ T.relevant) []

/-! ## `ready_to_tune` -/

/-- The names a tuner uses: `last_voltages`, `solver.current_position`, the positions of the
gradient estimators if the solver is a `NewtonSolver`, and the tunable gates if it is a
`SubsetTuner`.  `none` stands for Python's `None` or, for `estimators` and `tunable`, for
another class of solver or tuner.  Read in autotuner.py:170-205. -/
structure TunerNames where
  lastVoltages : Option (List String)
  solverPosition : Option (List String)
  estimators : Option (List (Option (List String)))
  tunable : Option (List String)

/-- `set(a).issubset(b)`.  Used in autotuner.py:172-205. -/
def subset (a b : List String) : Bool := a.all fun x => b.contains x

/-- The loop body over the gradient estimators (autotuner.py:185-205). -/
def checkEstimator (gates : List String) (tunable : Option (List String))
    (e : Option (List String)) : Except PyErr Bool :=
  match tunable, e with
  | none, none => .ok true
  | none, some pos => .ok (subset pos gates)
  | some _, none => .error .attributeError
  | some t, some pos => .ok (subset pos gates && subset t pos)

/-- The loop over the gradient estimators (autotuner.py:184-205). -/
def checkEstimators (gates : List String) (tunable : Option (List String)) :
    List (Option (List String)) → Except PyErr Bool
  | [] => .ok true
  | e :: es =>
    match checkEstimator gates tunable e with
    | .error err => .error err
    | .ok b =>
      match checkEstimators gates tunable es with
      | .error err => .error err
      | .ok b' => .ok (b && b')

/-- The check of `last_voltages` (autotuner.py:172-177). -/
def lastKnown (gates : List String) : Option (List String) → Bool
  | none => true
  | some l => subset l gates

/-- The loop body over the tuners (autotuner.py:170-205). -/
def checkTuner (gates : List String) (t : TunerNames) : Except PyErr Bool :=
  let b₁ := lastKnown gates t.lastVoltages
  match t.solverPosition with
  | none => .error .attributeError
  | some p =>
    match t.estimators with
    | none => .ok (b₁ && subset p gates)
    | some es =>
      match checkEstimators gates t.tunable es with
      | .error err => .error err
      | .ok b => .ok (b₁ && subset p gates && b)

/-- The loop over the tuners (autotuner.py:170-205). -/
def checkTuners (gates : List String) : List TunerNames → Except PyErr Bool
  | [] => .ok true
  | t :: ts =>
    match checkTuner gates t with
    | .error err => .error err
    | .ok b =>
      match checkTuners gates ts with
      | .error err => .error err
      | .ok b' => .ok (b && b')

/-- `Autotuner.ready_to_tune` (autotuner.py:161-206). -/
def readyToTune (gates : List String) (pending : Option (List String)) (ts : List TunerNames) :
    Except PyErr Bool :=
  match pending with
  | none => checkTuners gates ts
  | some p => if subset p gates then checkTuners gates ts else .error .assertionError

/-! ## Positions and `restart` -/

/-- An element of a pandas index: a gate name, or a number if the index is made of the values
of a series.  solver.py:88-91, gradient.py:45-48. -/
inductive Label
  | name (s : String)
  | num (x : Val)

/-- `series.index` as labels.  Used in gradient.py:47, parameter_tuner.py:108-111. -/
def indexLabels (s : Series) : List Label := s.map fun e => .name e.1

/-- What pandas makes of a *series* given where an index is expected: an index of its values
(`ensure_index`).  Used in gradient.py:47, parameter_tuner.py:110. -/
def valueLabels (s : Series) : List Label := s.map fun e => .num e.2

open Classical in
/-- `index.intersection(other)`.  Used in gradient.py:47, parameter_tuner.py:110, solver.py:90. -/
noncomputable def intersection (a b : List Label) : List Label := a.filter fun x => x ∈ b

/-- The gate names among the labels.  Used for gradient.py:48, parameter_tuner.py:111. -/
def names : List Label → List String
  | [] => []
  | .name s :: t => s :: names t
  | .num _ :: t => names t

/-- `target[labels] = source[labels]` for labels that both series have.
gradient.py:48, parameter_tuner.py:111, solver.py:91. -/
def copyLabels (target source : Series) (labels : List String) : Series :=
  target.map fun e => if labels.contains e.1 then (e.1, source.val e.1) else e

/-- The setter of `ParameterTuner.last_voltages` (parameter_tuner.py:105-111). The index is
intersected with the series `new_voltages`, not with its index (line 110). -/
noncomputable def setLastVoltages (last : Option Series) (new : Series) : Option Series :=
  match last with
  | none => some new
  | some [] => some new
  | some l => some (copyLabels l new (names (intersection (indexLabels l) (valueLabels new))))

/-- The setter of `Solver.current_position` (solver.py:88-91). -/
noncomputable def setSolverPosition (pos new : Series) : Series :=
  copyLabels pos new (names (intersection (indexLabels pos) (indexLabels new)))

/-- The setter of `GradientEstimator.current_position` (gradient.py:45-48).  The index of the new
position is intersected with the series of the old one (line 47). -/
noncomputable def setEstimatorPosition (pos new : Series) : Series :=
  copyLabels pos new (names (intersection (indexLabels new) (valueLabels pos)))

/-- The positions held by a tuner: its own, its solver's, and those of the gradient estimators
(empty for a solver other than `NewtonSolver`).  parameter_tuner.py:101-111, solver.py:84-91, gradient.py:41-48. -/
structure TunerPos where
  lastVoltages : Option Series
  solverPos : Series
  estimatorPos : List Series

/-- `ParameterTuner.restart` (parameter_tuner.py:181-183) with `NewtonSolver.restart`
(solver.py:260-263) and `GradientEstimator.restart` (gradient.py:68-69).  Simplification: the
positions are separate objects. -/
noncomputable def restartTuner (t : TunerPos) (new : Series) : TunerPos :=
  { lastVoltages := setLastVoltages t.lastVoltages new
    estimatorPos := t.estimatorPos.map fun p => setEstimatorPosition p new
    solverPos := setSolverPosition t.solverPos new }

/-- The loop in `Autotuner.restart` (autotuner.py:298-300). -/
noncomputable def restartAll (ts : List TunerPos) (new : Series) : List TunerPos :=
  ts.map fun t => restartTuner t new

end Qtune.Naming
