import Verif.Gradient.FD
import Verif.Tuner.Model

/-!
# `NelderMeadSolver` (solver.py:269-504)

Simplifications: positions and values are free of NaN; positions are vectors over the gates
`Fin n` (the index of `current_position`), `V` is the type of the measured values, `cost` is
`cost_function`, that is the user's function of the difference to the desired values
(solver.py:342-347), as a real number.
-/

namespace Qtune.NelderMead

open Qtune.Gradient

/-- `NelderMeadSolver.State` (solver.py:270-277). -/
inductive Phase
  | startIteration
  | buildUp
  | reflect
  | expand
  | contractOutside
  | contractInside
  | shrink
deriving DecidableEq, Repr

/-- The attributes of the solver (solver.py:295-312). -/
structure State (n : Nat) (V : Type) where
  simplex : List (Vec n × V)
  pos : Vec n
  vals : V
  span : Vec n
  phase : Phase
  reflected : Option (Vec n × V)
  shrunk : List (Vec n × V)

variable {n : Nat} {V : Type}

/-- `NelderMeadSolver.from_scratch` (solver.py:314-328). -/
def fromScratch (span pos : Vec n) (vals : V) : State n V :=
  ⟨[(pos, vals)], pos, vals, span, .buildUp, none, []⟩

/-- `_get_sorted_simplex` (solver.py:360-365); `sorted` is stable. -/
noncomputable def sortByCost (cost : V → ℝ) (l : List (Vec n × V)) : List (Vec n × V) :=
  l.mergeSort fun a b => decide (cost a.2 ≤ cost b.2)

/-- `_insert_into_simplex` (solver.py:367-370): append, sort, drop the last one. -/
noncomputable def insert (cost : V → ℝ) (l : List (Vec n × V)) (e : Vec n × V) : List (Vec n × V) :=
  (sortByCost cost (l ++ [e])).dropLast

/-- The mean of the positions (solver.py:376). -/
noncomputable def mean (ps : List (Vec n)) : Vec n := fun i => (ps.map (· i)).sum / ps.length

/-- The error at solver.py:404 and 410. -/
def bug : PyErr := .runtimeError "Bug"

/-- `suggest_next_position` (solver.py:372-410).  `orth` is `get_orthogonal_vector` (util.py:202-208),
`none` if there is no orthogonal vector (`ValueError` of the unpacking in line 204). -/
noncomputable def suggest (orth : Orth n) (s : State n V) : State n V × Except PyErr (Vec n) :=
  let ps := s.simplex.map Prod.fst
  match ps.getLast? with
  | none => (s, .error .indexError)                                             -- line 374
  | some worst =>
    let m := mean ps                                                            -- lines 376-380
    let r := (2 : ℝ) • m - worst
    let e := m + (2 : ℝ) • (m - worst)
    let c := m + (1 / 2 : ℝ) • (r - m)
    let cc := m + (1 / 2 : ℝ) • (worst - m)
    if s.simplex.length < n + 1 then                                            -- lines 382-386
      match ps with
      | [] => (s, .error .indexError)
      | p₀ :: _ =>
        let s := { s with phase := .buildUp }
        match orth (List.finRange n) (ps.map (· - p₀)) with
        | none => (s, .error .valueError)
        | some u => (s, .ok (p₀ + u * s.span))
    else
      match s.phase with
      | .startIteration | .reflect => ({ s with phase := .reflect }, .ok r)     -- lines 388-390
      | .expand => (s, .ok e)                                                   -- lines 392-393
      | .contractOutside => (s, .ok c)                                          -- lines 395-396
      | .contractInside => (s, .ok cc)                                          -- lines 398-399
      | .shrink =>                                                              -- lines 401-407
        if s.shrunk.length + 1 = s.simplex.length then (s, .error bug)
        else
          match ps.head?, ps[s.shrunk.length + 1]? with
          | some p₀, some pᵢ => (s, .ok (p₀ + (1 / 2 : ℝ) • (pᵢ - p₀)))
          | _, _ => (s, .error .indexError)
      | .buildUp => (s, .error bug)                                             -- lines 409-410

/-- The body of `update_after_step` (solver.py:416-490), without the last two lines. -/
noncomputable def step (cost : V → ℝ) (p : Vec n) (v : V) (s : State n V) :
    State n V × Except PyErr Unit :=
  let costs := s.simplex.map fun e => cost e.2
  if s.simplex.length < n + 1 then                                              -- lines 416-421
    let l := s.simplex ++ [(p, v)]
    if l.length = n + 1 then
      ({ s with simplex := sortByCost cost l, phase := .startIteration }, .ok ())
    else ({ s with simplex := l }, .ok ())
  else
    match s.phase with
    | .reflect =>                                                               -- lines 423-442
      let s := { s with reflected := some (p, v) }
      match costs.head? with
      | none => (s, .error .indexError)
      | some best =>
        if cost v < best then ({ s with phase := .expand }, .ok ())
        else
          match costs.dropLast.getLast?, costs.getLast? with
          | some second, some worst =>
            if second ≤ cost v then
              if cost v < worst then ({ s with phase := .contractOutside }, .ok ())
              else ({ s with phase := .contractInside }, .ok ())
            else ({ s with simplex := insert cost s.simplex (p, v) }, .ok ())
          | _, _ => (s, .error .indexError)
    | .expand =>                                                                -- lines 444-452
      match s.reflected with
      | none => (s, .error .typeError)
      | some r =>
        if cost v < cost r.2 then ({ s with simplex := insert cost s.simplex (p, v) }, .ok ())
        else ({ s with simplex := insert cost s.simplex r }, .ok ())
    | .contractOutside =>                                                       -- lines 454-463
      match s.reflected with
      | none => (s, .error .typeError)
      | some r =>
        if cost v < cost r.2 then ({ s with simplex := insert cost s.simplex (p, v) }, .ok ())
        else ({ s with phase := .shrink }, .ok ())
    | .contractInside =>                                                        -- lines 465-473
      match costs.getLast? with
      | none => (s, .error .indexError)
      | some worst =>
        if cost v < worst then ({ s with simplex := insert cost s.simplex (p, v) }, .ok ())
        else ({ s with phase := .shrink }, .ok ())
    | .shrink =>                                                                -- lines 475-481
      let l := s.shrunk ++ [(p, v)]
      if l.length = n then
        ({ s with simplex := l.foldl (insert cost) s.simplex, shrunk := [] }, .ok ())
      else ({ s with shrunk := l }, .ok ())
    | .startIteration | .buildUp =>                                             -- lines 483-490
      match costs.getLast? with
      | none => (s, .error .indexError)
      | some worst =>
        let l := if cost v < worst then insert cost s.simplex (p, v) else s.simplex
        ({ s with simplex := l, phase := .startIteration }, .ok ())

/-- `update_after_step` (solver.py:412-493): `step`, then position and values are taken over. -/
noncomputable def update (cost : V → ℝ) (p : Vec n) (v : V) (s : State n V) :
    State n V × Except PyErr Unit :=
  match step cost p v s with
  | (s, .error e) => (s, .error e)
  | (s, .ok ()) => ({ s with pos := p, vals := v }, .ok ())

/-- `str(self._state)` (solver.py:504): name of the class and of the member. -/
def Phase.str : Phase → String
  | .startIteration => "State.start_iteration"
  | .buildUp => "State.build_up"
  | .reflect => "State.reflect"
  | .expand => "State.expand"
  | .contractOutside => "State.contract_outside"
  | .contractInside => "State.contract_inside"
  | .shrink => "State.shrink"

/-- `self.State(state)` (solver.py:309): lookup by value (solver.py:271-277). -/
def Phase.parse (x : String) : Except PyErr Phase :=
  if x = "start_iteration" then .ok .startIteration
  else if x = "built_up" then .ok .buildUp
  else if x = "reflect" then .ok .reflect
  else if x = "expand" then .ok .expand
  else if x = "contract_outside" then .ok .contractOutside
  else if x = "contract_inside" then .ok .contractInside
  else if x = "shrink" then .ok .shrink
  else .error .valueError

/-- `NelderMeadSolver.__init__` (solver.py:279-312) with the given entries. -/
def new (simplex : List (Vec n × V)) (span pos : Vec n) (vals : V) (reflected : Option (Vec n × V))
    (shrunk : List (Vec n × V)) (phase : String) : Except PyErr (State n V) :=
  match Phase.parse phase with
  | .error e => .error e
  | .ok ph => .ok ⟨simplex, pos, vals, span, ph, reflected, shrunk⟩

/-- `NelderMeadSolver(**solver.to_hdf5())` (solver.py:495-504). -/
def reload (s : State n V) : Except PyErr (State n V) :=
  new s.simplex s.span s.pos s.vals s.reflected s.shrunk s.phase.str

/-- The solver as it is used by a tuner.  `suggest_next_position` has no parameter besides `self`
(solver.py:372) and is called with `tuned_parameters` (parameter_tuner.py:264): `TypeError`.  Simplification: `current_position` has no setter
(solver.py:352-354), so that an assignment raises `AttributeError` (`Verif/Autotuner/SolverClassModel.lean`); here, where the interface has no
exceptions for it, it moves the solver.  A tuner assigns only if it has steps in its queue, hence not before a suggestion was made. -/
noncomputable def solver (target : Target) (cost : V → ℝ) (toVals : Series → V) :
    Tuner.SolverI (State n V) (Fin n) where
  target := fun _ => target
  setPosition := fun v s => { s with pos := fun i => (v i).getD (s.pos i) }
  update := fun v x _ s => update cost (fun i => (v i).getD 0) (toVals x) s
  suggest := fun _ s => (s, .error .typeError)

end Qtune.NelderMead
