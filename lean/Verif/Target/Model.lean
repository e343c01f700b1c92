import Verif.Tuner.Model

/-!
# Model of target tables and of the label-wise solvers

`make_target` (solver.py:30-72), the setter of `Solver.target` (solver.py:113-123),
`rescale_values` / `descale_values` (solver.py:129-151) and `ForwardingSolver`
(solver.py:507-557).
-/

namespace Qtune.TargetOps

open Qtune.Tuner

/-! ## `make_target` -/

/-- An argument of `make_target`: a series or a number (default NaN).  solver.py:30-36. -/
inductive Arg
  | series (s : Series)
  | scalar (x : Val)

/-- `to_series` inside `make_target` (solver.py:56-60), together with the default of the
rescaling factor for `rescaling` (solver.py:62-64). -/
def Arg.toSeries (a : Arg) (names : List String) : Except PyErr Series :=
  match a with
  | .scalar x => .ok (names.map fun l => (l, x))
  | .series s => s.select names

/-- solver.py:62-64: a rescaling factor that is not given is 1 for all parameters. -/
noncomputable def Arg.orOne (a : Arg) : Arg :=
  match a with
  | .scalar none => .scalar (some 1)
  | a => a

/-- The names are the index of the first of the arguments that is a series
(solver.py:49-54). -/
def firstNames : List Arg → Option (List String)
  | [] => none
  | .series s :: _ => some s.index
  | .scalar _ :: rest => firstNames rest

/-- `make_target` (solver.py:30-72).  The columns are built in the order of lines 66-71. -/
noncomputable def makeTarget (desired maximum minimum tolerance cost rescaling : Arg) :
    Except PyErr Target :=
  match firstNames [desired, maximum, minimum, tolerance] with
  | none => .error (.runtimeError "Could not extract values names from arguments")
  | some names => do
    let d ← desired.toSeries names
    let mi ← minimum.toSeries names
    let ma ← maximum.toSeries names
    let t ← tolerance.toSeries names
    let c ← cost.toSeries names
    let r ← rescaling.orOne.toSeries names
    .ok (names.map fun l =>
      { name := l, desired := d.val l, minimum := mi.val l, maximum := ma.val l,
        tolerance := t.val l, costThreshold := c.val l, rescaling := r.val l })

/-! ## Changing a target -/

/-- The columns of a target table.  solver.py:66-71. -/
inductive Column
  | desired | minimum | maximum | tolerance | costThreshold | rescaling
deriving DecidableEq

/-- An entry of a row.  solver.py:66-71. -/
def Column.get : Column → Row → Val
  | .desired => Row.desired
  | .minimum => Row.minimum
  | .maximum => Row.maximum
  | .tolerance => Row.tolerance
  | .costThreshold => Row.costThreshold
  | .rescaling => Row.rescaling

/-- Replaces an entry of a row.  solver.py:123. -/
def Column.set (c : Column) (x : Val) (r : Row) : Row :=
  match c with
  | .desired => { r with desired := x }
  | .minimum => { r with minimum := x }
  | .maximum => { r with maximum := x }
  | .tolerance => { r with tolerance := x }
  | .costThreshold => { r with costThreshold := x }
  | .rescaling => { r with rescaling := x }

/-- The loop body of the setter of `Solver.target` (solver.py:116-123): assigns the entries
label by label; unknown labels raise `KeyError` and leave the table as it is. -/
def changeColumn (T : Target) (c : Column) (s : Series) : Except PyErr Target :=
  if s.all (fun e => T.names.contains e.1) then
    .ok (T.map fun r => if s.index.contains r.name then c.set (s.val r.name) r else r)
  else .error .keyError

/-- The setter of `Solver.target` (solver.py:113-123).  A category that is not a column of the
table, which raises `KeyError` too, cannot be expressed here. -/
def changeTarget (T : Target) : List (Column × Series) → Target × Except PyErr Unit
  | [] => (T, .ok ())
  | (c, s) :: rest =>
    match changeColumn T c s with
    | .error e => (T, .error e)
    | .ok T' => changeTarget T' rest

/-- The loop of `Autotuner.change_targets` (autotuner.py:216-217) over the targets of the
tuners.  Changes for which there is no tuner raise `IndexError`. -/
def changeEach : List Target → List (List (Column × Series)) → List Target × Except PyErr Unit
  | Ts, [] => (Ts, .ok ())
  | [], _ :: _ => ([], .error .indexError)
  | T :: Ts, c :: cs =>
    match changeTarget T c with
    | (T', .error e) => (T' :: Ts, .error e)
    | (T', .ok ()) => ((T' :: (changeEach Ts cs).1), (changeEach Ts cs).2)

/-- `Autotuner.change_targets` (autotuner.py:215-217) as far as the targets of the tuners are
concerned. -/
def changeTargets (Ts : List Target) (cs : List (List (Column × Series))) : List Target × Except PyErr Unit :=
  if cs.length ≤ Ts.length then changeEach Ts cs else (Ts, .error .assertionError)

/-! ## Rescaling -/

/-- `rescaling_factor[values.index]` (solver.py:136-138): the divisor for label `l`; entries
outside of the index of the values become NaN by alignment. -/
noncomputable def divisor (T : Target) (values : Series) (l : String) : Val :=
  if l ∈ values.index then factor T l else none

/-- `Solver.rescale_values` (solver.py:129-139). -/
noncomputable def rescale (T : Target) (values variances : Series) : Series × Series :=
  (values.map fun e => (e.1, Val.div e.2 (divisor T values e.1)),
   variances.map fun e =>
     (e.1, Val.div e.2 (Val.mul (divisor T values e.1) (divisor T values e.1))))

/-- `Solver.descale_values` (solver.py:141-151). -/
noncomputable def descale (T : Target) (values variances : Series) : Series × Series :=
  (values.map fun e => (e.1, Val.mul e.2 (divisor T values e.1)),
   variances.map fun e =>
     (e.1, Val.mul e.2 (Val.mul (divisor T values e.1) (divisor T values e.1))))

/-! ## `ForwardingSolver` -/

/-- State of a `ForwardingSolver` (solver.py:521-528).  `mapping` is `values_to_position`:
parameter name to gate name, or NaN. -/
structure Forwarding where
  target : Target
  mapping : List (String × Option String)
  current : Series
  next : Series

/-- `series[labels] = other[labels]` for the labels both have (solver.py:541-544). -/
def overwrite (s other : Series) : Series :=
  s.map fun e => (e.1, if other.index.contains e.1 then other.val e.1 else e.2)

/-- The constructor (solver.py:511-528). -/
def Forwarding.new (target : Target) (mapping : List (String × Option String))
    (current : Series) (next : Option Series) : Except PyErr Forwarding :=
  match next with
  | none => .ok ⟨target, mapping, current, current⟩
  | some n =>
    match n.select current.index with
    | .error e => .error e
    | .ok n => .ok ⟨target, mapping, current, n⟩

/-- The pairs (gate, parameter) of mapped values (solver.py:546-547). -/
def Forwarding.pairs (f : Forwarding) (values : Series) : List (String × String) :=
  values.index.filterMap fun p => ((f.mapping.lookup p).join).map fun g => (g, p)

/-- `self._next_position[gates] = values[parameters]` (solver.py:548): position by position,
later assignments win; an unknown gate raises (`KeyError` or `ValueError` depending on the
version of pandas). -/
def assignPairs (next : Series) (values : Series) : List (String × String) → Series
  | [] => next
  | (g, p) :: rest =>
    assignPairs (next.map fun e => (e.1, if e.1 = g then values.val p else e.2)) values rest

/-- `ForwardingSolver.update_after_step` (solver.py:533-548). -/
noncomputable def Forwarding.update (f : Forwarding) (position values variances : Series) :
    Forwarding × Except PyErr Unit :=
  let f := { f with current := overwrite f.current position,                    -- lines 541-542
                    next := overwrite f.next position }                         -- lines 543-544
  let values := (descale f.target values variances).1                           -- line 545
  let pairs := f.pairs values
  if pairs.all fun e => f.next.index.contains e.1 then
    ({ f with next := assignPairs f.next values pairs }, .ok ())                -- line 548
  else (f, .error .keyError)

/-- `ForwardingSolver.suggest_next_position` (solver.py:530-531). -/
def Forwarding.suggest (f : Forwarding) : Series := f.next

end Qtune.TargetOps
