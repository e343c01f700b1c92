import Verif.Tuner.Model
import Mathlib.Algebra.BigOperators.Group.Finset.Basic

/-!
# Model of `NewtonSolver` (solver.py:154-266)

Gates are the elements of a finite type `ι`.  `gates` is the index of the position of the solver;
functions on `ι` are read on these gates only.
-/

namespace Qtune.Newton

open Qtune.Tuner (Volt)

/-- What the solver uses of a gradient estimator (gradient.py:32-72).  Simplification: estimators are
separate objects, calling one does not change another one. -/
structure EstI (E ι : Type) where
  /-- `estimator.estimate()`, `none` is `None` -/
  estimate : E → Option (ι → Val)
  /-- `estimator.require_measurement(gates, tuned_jacobian)`; `none` for the tuned Jacobian is
  `None`, otherwise it has one row for each tuned parameter with a gradient.  The result `none` is
  `None`; a position mentions some of the gates -/
  require : List ι → Option (List (ι → Val)) → E → E × Except PyErr (Option (ι → Option Val))
  /-- `estimator.update(position, value, variance, is_new_position=True)` -/
  update : Volt ι → Val → Val → E → E × Except PyErr Unit

/-- State of a `NewtonSolver` (solver.py:169-181). `values` has the index of the target. -/
structure State (E ι : Type) where
  target : Target
  ests : List E
  gates : List ι
  pos : ι → Val
  values : Series

variable {E ι : Type}

/-- The constructor (solver.py:159-181).  Simplifications: the assertion on the gates of the
estimators (lines 173-174) always holds because all functions have the domain `ι`; the names of the
target are different. -/
def new (target : Target) (ests : List E) (gates : List ι) (pos : ι → Val) (values : Option Series) :
    Except PyErr (State E ι) :=
  if target.length ≠ ests.length then .error .assertionError                    -- line 171
  else
    match values with
    | some vs =>
      if target.names.all (fun l => (vs.lookup l).isSome) then                  -- line 176
        if gates.length < target.length then .error .assertionError             -- line 180
        else .ok ⟨target, ests, gates, pos, target.names.map fun l => (l, vs.val l)⟩
      else .error .assertionError
    | none =>
      if gates.length < target.length then .error .assertionError
      else .ok ⟨target, ests, gates, pos, target.names.map fun l => (l, none)⟩   -- line 179

/-- `pd.concat(gradients, axis=1)`: `None` is left out, `ValueError` if nothing is left.
Used in solver.py:187-190, 209-217. -/
def concat (gradients : List (Option (ι → Val))) : Except PyErr (List (ι → Val)) :=
  match gradients.filterMap id with
  | [] => .error .valueError
  | rows => .ok rows

/-- The gradients of the tuned parameters (solver.py:209-217). -/
def tunedJacobian (I : EstI E ι) (tuned : List String) (s : State E ι) :
    Except PyErr (Option (List (ι → Val))) :=
  match (s.target.zip s.ests).filter (fun re => tuned.contains re.1.name) with
  | [] => .ok none
  | ests =>
    match concat (ests.map fun re => I.estimate re.2) with
    | .error e => .error e
    | .ok rows => .ok (some rows)

open Classical in
/-- The loop of solver.py:219-224: asks the estimators of parameters with a desired value in order
until one makes a request that is not empty. -/
noncomputable def ask (I : EstI E ι) (gates : List ι) (tj : Option (List (ι → Val))) :
    List (Row × E) → List E × Except PyErr (Option (ι → Option Val))
  | [] => ([], .ok none)
  | (r, e) :: rest =>
    if r.desired.isNone then                                                    -- line 220
      match ask I gates tj rest with
      | (es, res) => (e :: es, res)
    else
      match I.require gates tj e with
      | (e', .error err) => (e' :: rest.map Prod.snd, .error err)
      | (e', .ok sug) =>
        match sug with
        | some p =>
          if ∃ i, p i ≠ none then (e' :: rest.map Prod.snd, .ok (some p))        -- lines 223-224
          else
            match ask I gates tj rest with
            | (es, res) => (e' :: es, res)
        | none =>
          match ask I gates tj rest with
          | (es, res) => (e' :: es, res)

/-- One entry of `target.desired.add(-1 * values, fill_value=0).fillna(0)` (solver.py:232): a
missing entry counts as 0 if the other one is there; 0 if both are missing. -/
noncomputable def requiredDiff (desired value : Val) : ℝ := desired.getD 0 - value.getD 0

/-- `np.linalg.lstsq(jacobian, required_diff)`: gates, rows of the Jacobian, right hand side.
`none` stands for `LinAlgError`.  Not modelled: small singular values are cut off (`rcond`).
Called in solver.py:236-240. -/
abbrev Lstsq (ι : Type) := List ι → List (ι → Val) → List ℝ → Option (ι → Val)

/-- The Newton step (solver.py:226-243).  numpy raises `LinAlgError` if the number of rows and the
length of the right hand side differ. -/
noncomputable def newtonStep (I : EstI E ι) (lstsq : Lstsq ι) (s : State E ι) :
    Except PyErr (ι → Val) :=
  let diff := s.target.map fun r => requiredDiff r.desired (s.values.val r.name)
  match concat (s.ests.map I.estimate) with                                     -- line 234, 187-190
  | .error e => .error e
  | .ok rows =>
    if rows.length ≠ diff.length then .error .linAlgError
    else
      match lstsq s.gates rows diff with                                        -- line 239
      | none => .error .linAlgError
      | some step => .ok fun i => Val.add (s.pos i) (step i)                     -- line 243

open Classical in
/-- `suggest_next_position` (solver.py:201-243). -/
noncomputable def suggest (I : EstI E ι) (lstsq : Lstsq ι) (tuned : List String) (s : State E ι) :
    State E ι × Except PyErr (ι → Option Val) :=
  match tunedJacobian I tuned s with
  | .error e => (s, .error e)
  | .ok tj =>
    match ask I s.gates tj (s.target.zip s.ests) with
    | (es, .error e) => ({ s with ests := es }, .error e)
    | (es, .ok (some p)) => ({ s with ests := es }, .ok p)
    | (es, .ok none) =>
      match newtonStep I lstsq { s with ests := es } with
      | .error e => ({ s with ests := es }, .error e)
      | .ok p => ({ s with ests := es }, .ok fun i => if i ∈ s.gates then some (p i) else none)

/-- The loop of `update_after_step` (solver.py:246-250).  `zip` ends with the shortest list; the
estimators after that are left alone. -/
def feed (I : EstI E ι) (T : Target) (v : Volt ι) :
    List E → Series → List Val → List E × Except PyErr Unit
  | e :: es, (l, x) :: values, s :: variances =>
    match T.row? l with
    | none => (e :: es, .error .keyError)                                       -- line 249
    | some r =>
      if r.desired.isNone then
        match feed I T v es values variances with
        | (es', res) => (e :: es', res)
      else
        match I.update v x s e with                                             -- line 250
        | (e', .error err) => (e' :: es, .error err)
        | (e', .ok ()) =>
          match feed I T v es values variances with
          | (es', res) => (e' :: es', res)
  | es, _, _ => (es, .ok ())

/-- `update_after_step` (solver.py:245-252).  Simplification: `v` mentions all gates. -/
def update (I : EstI E ι) (v : Volt ι) (values variances : Series) (s : State E ι) :
    State E ι × Except PyErr Unit :=
  match values.select s.values.index with
  | .error e => (s, .error e)
  | .ok vals =>
    match feed I s.target v s.ests vals (variances.map Prod.snd) with
    | (es, .error e) => ({ s with ests := es }, .error e)
    | (es, .ok ()) => ({ s with ests := es, pos := v, values := vals }, .ok ())

/-- The solver as it is used by a tuner.  The position setter is solver.py:88-91. -/
noncomputable def solver (I : EstI E ι) (lstsq : Lstsq ι) : Qtune.Tuner.SolverI (State E ι) ι where
  target := State.target
  setPosition := fun v s => { s with pos := v }
  update := update I
  suggest := suggest I lstsq

end Qtune.Newton
