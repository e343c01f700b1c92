import Verif.Series

/-!
# Model of `tuner.state` (parameter_tuner.py:117-119, solver.py:125-127, 187-199, 550-551)

The state of a tuner is that of its solver; for a Newton solver it lists the gradients.
-/

namespace Qtune.SolverState

/-- A solver as far as its state is concerned: for a Newton solver the names of the target, what the gradient estimators return (`none`: `None`)
and the gates of its position.  solver.py:154-263, 269-504, 507-557. -/
inductive Solver
  | newton (names : List String) (gradients : List (Option Series)) (gates : List String)
  | nelderMead
  | forwarding

/-- The columns that `pd.concat(gradients, axis=1, keys=names)` keeps: `None` is left out together with its key.  solver.py:189-190. -/
def known (names : List String) (gradients : List (Option Series)) : List (String × Series) :=
  (names.zip gradients).filterMap fun e => e.2.map fun s => (e.1, s)

/-- `'d{}/d{}'.format(param, gate)` (solver.py:198). -/
def label (param gate : String) : String := "d" ++ param ++ "/d" ++ gate

/-- What reading the attribute gives: a Series, or the method of `ForwardingSolver`, which lacks `@property` (solver.py:550). -/
inductive Shown
  | series (s : Series)
  | method

/-- `tuner.state` (parameter_tuner.py:117-119): `pd.concat` raises `ValueError` if nothing is left (solver.py:190), `jacobian[gates]` raises `KeyError` for a
gate that none of the gradients has (solver.py:194); a gate that only others have is NaN.  `NelderMeadSolver` does not define `state` (solver.py:125-127,
`other 1` stands for `NotImplementedError`). -/
def state : Solver → Except PyErr Shown
  | .newton names gradients gates =>
    let rows := known names gradients
    if rows.isEmpty then .error .valueError
    else if gates.all fun g => rows.any fun r => r.2.index.contains g then
      .ok (.series (rows.flatMap fun r => gates.map fun g => (label r.1 g, r.2.val g)))       -- lines 195-199
    else .error .keyError
  | .nelderMead => .error (.other 1)
  | .forwarding => .ok .method                                                      -- lines 550-551

end Qtune.SolverState
