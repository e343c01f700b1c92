import Verif.Target.Model
import Mathlib.Analysis.Real.Sqrt

/-!
# Series that are shared between objects

A Series is an object of Python: objects that get the same Series hold the same one, and an assignment to its entries is seen by all of them.  This
file models a session with an experiment, a Newton solver and its gradient estimators twice, with references to Series and with Series as values.
All other files treat Series as values.

`TestExperiment` and the estimators keep the Series that they are constructed with (basic_dqd.py:71, solver.py:176, gradient.py:104, 245:
`pd.Series(series)` shares the data of `series`).
-/

namespace Qtune.Sharing

open Qtune.TargetOps

/-- The contents of all Series, which are identified by numbers; the numbers from `next` on are not used yet.  gradient.py:104. -/
structure Heap where
  data : Nat → Series
  next : Nat

/-- A new Series, for example `series[labels]`.  solver.py:251. -/
def Heap.alloc (h : Heap) (s : Series) : Heap := ⟨Function.update h.data h.next s, h.next + 1⟩

/-- Assignment to entries of a Series.  solver.py:91, gradient.py:131, basic_dqd.py:95. -/
def Heap.write (h : Heap) (r : Nat) (s : Series) : Heap := ⟨Function.update h.data r s, h.next⟩

/-- An estimator as far as positions are concerned; `α` is the type of positions.  Of the Kalman filter the updates are recorded (differences of the
gates, difference of the values, variance); of the finite differences the stored measurements, of which `full` are
needed (none if there is an estimate from the start).
gradient.py:98-124, 244-259. -/
inductive Est (α : Type)
  | kalman (pos : α) (value : Option ℝ) (fed : List (List (String × ℝ) × ℝ × ℝ))
  | fd (pos : α) (symmetric : Bool) (full : Nat) (stored : List (Series × ℝ × ℝ))

/-- The current position.  gradient.py:41-43. -/
def Est.pos {α : Type} : Est α → α
  | .kalman p _ _ => p
  | .fd p _ _ _ => p

/-- The same estimator with another representation of the position.  gradient.py:41-43. -/
def Est.map {α β : Type} (f : α → β) : Est α → Est β
  | .kalman p v l => .kalman (f p) v l
  | .fd p s n l => .fd (f p) s n l

/-- `series[labels]`; a label that is missing gives NaN.  Simplification: no exception if all are missing.  gradient.py:343, solver.py:251. -/
def pick (labels : List String) (s : Series) : Series := labels.map fun g => (g, s.val g)

/-- `(position - current).dropna()` (gradient.py:344). -/
noncomputable def diff (p q : Series) : List (String × ℝ) := p.filterMap fun e => (Val.sub e.2 (q.val e.1)).map fun x => (e.1, x)

/-- `np.linalg.norm(diff) < 1e-7` (gradient.py:353). -/
def Short (d : List (String × ℝ)) : Prop := Real.sqrt ((d.map fun e => e.2 ^ 2).sum) < 1 / 10000000

/-- `series.isnull().all()` (gradient.py:185). -/
def blank (s : Series) : Bool := s.all fun e => e.2.isNone

/-- `position[current.index.intersection(position.index)]` (gradient.py:183). -/
def common (current position : Series) : Series := pick (current.index.filter fun g => position.index.contains g) position

open Classical in
/-- `estimator.update(position, value, variance, is_new_position=True)` with references (gradient.py:182-215, 330-360).  Simplifications: filter and
finite differences do not raise. -/
noncomputable def updateH (r : Nat) (x : ℝ × ℝ) (h : Heap) : Est Nat → Heap × Est Nat
  | .kalman pos value fed =>
    let p := pick (h.data pos).index (h.data r)                                                 -- line 343
    let d := diff p (h.data pos)                                                                -- line 344
    match value with
    | none => (h.alloc p, .kalman h.next (some x.1) fed)                                        -- lines 346-349
    | some v => (h.alloc p, .kalman h.next (some x.1) (if Short d then fed else fed ++ [(d, x.1 - v, x.2)]))  -- lines 351-360
  | .fd pos symmetric full stored =>
    let p := common (h.data pos) (h.data r)                                                     -- line 183
    if blank (h.data pos) then                                                                  -- lines 185-189
      (h.write pos (overwrite (h.data pos) p),
        .fd pos symmetric full (if symmetric then stored else stored ++ [(pick (h.data pos).index p, x.1, x.2)]))
    else if stored.length < full then (h, .fd pos symmetric full (stored ++ [(pick (h.data pos).index p, x.1, x.2)]))  -- line 192
    else (h, .fd pos symmetric full stored)

open Classical in
/-- The same with Series as values.  gradient.py:182-215, 330-360. -/
noncomputable def updateV (s : Series) (x : ℝ × ℝ) : Est Series → Est Series
  | .kalman pos value fed =>
    match value with
    | none => .kalman (pick pos.index s) (some x.1) fed
    | some v => .kalman (pick pos.index s) (some x.1)
        (if Short (diff (pick pos.index s) pos) then fed else fed ++ [(diff (pick pos.index s) pos, x.1 - v, x.2)])
  | .fd pos symmetric full stored =>
    if blank pos then
      .fd (overwrite pos (common pos s)) symmetric full (if symmetric then stored else stored ++ [(pick pos.index (common pos s), x.1, x.2)])
    else if stored.length < full then .fd pos symmetric full (stored ++ [(pick pos.index (common pos s), x.1, x.2)])
    else .fd pos symmetric full stored

/-- The loop over the estimators, which ends with the shorter list (solver.py:246-250).  Simplification: estimators of parameters
without a desired value, which are skipped there, are left out of the list. -/
noncomputable def updateAllH (r : Nat) : List (ℝ × ℝ) → List (Est Nat) → Heap → Heap × List (Est Nat)
  | x :: xs, e :: es, h =>
    let u := updateH r x h e
    let us := updateAllH r xs es u.1
    (us.1, u.2 :: us.2)
  | _, es, h => (h, es)

/-- The same with Series as values.  solver.py:246-250. -/
noncomputable def updateAllV (s : Series) : List (ℝ × ℝ) → List (Est Series) → List (Est Series)
  | x :: xs, e :: es => updateV s x e :: updateAllV s xs es
  | _, es => es

/-- `restart` of an estimator: its setter assigns nothing, see C50; a Kalman estimator forgets its value.  gradient.py:45-48, 68-69, 369-371. -/
def Est.restart {α : Type} : Est α → Est α
  | .kalman p _ l => .kalman p none l
  | e => e

/-- Experiment, solver and estimators.  basic_dqd.py:71, solver.py:173-181. -/
structure Session (α : Type) where
  exp : α
  solver : α
  ests : List (Est α)

/-- What happens in a session.  basic_dqd.py:93-96, parameter_tuner.py:230-232, 247, solver.py:245-263. -/
inductive Op
  /-- `experiment.set_gate_voltages(v)` -/
  | move (v : Series)
  /-- the voltages are read and `solver.update_after_step` is called with the measured values and variances -/
  | evaluate (xs : List (ℝ × ℝ))
  /-- the voltages are read and assigned to `solver.current_position` -/
  | slice
  /-- the voltages are read and `solver.restart` is called -/
  | restart

/-- One operation with references.  `read_gate_voltages` makes a copy (basic_dqd.py:90-91).  basic_dqd.py:93-96, solver.py:88-91, 245-263. -/
noncomputable def stepH : Op → Heap × Session Nat → Heap × Session Nat
  | .move v, (h, s) => (h.write s.exp (overwrite (h.data s.exp) v), s)
  | .evaluate xs, (h, s) =>
    let r := h.next
    let h := h.alloc (h.data s.exp)
    let u := updateAllH r xs s.ests h
    (u.1.alloc (pick (u.1.data s.solver).index (u.1.data r)), ⟨s.exp, u.1.next, u.2⟩)
  | .slice, (h, s) => (h.write s.solver (overwrite (h.data s.solver) (h.data s.exp)), s)
  | .restart, (h, s) => (h.write s.solver (overwrite (h.data s.solver) (h.data s.exp)), ⟨s.exp, s.solver, s.ests.map Est.restart⟩)

/-- One operation with Series as values.  basic_dqd.py:93-96, solver.py:88-91, 245-263. -/
noncomputable def stepV : Op → Session Series → Session Series
  | .move v, s => ⟨overwrite s.exp v, s.solver, s.ests⟩
  | .evaluate xs, s => ⟨s.exp, pick s.solver.index s.exp, updateAllV s.exp xs s.ests⟩
  | .slice, s => ⟨s.exp, overwrite s.solver s.exp, s.ests⟩
  | .restart, s => ⟨s.exp, overwrite s.solver s.exp, s.ests.map Est.restart⟩

/-- A sequence of operations, with references.  basic_dqd.py:93-96, solver.py:88-91, 245-263. -/
noncomputable def runH (ops : List Op) (c : Heap × Session Nat) : Heap × Session Nat := ops.foldl (fun c op => stepH op c) c

/-- A sequence of operations, with values.  basic_dqd.py:93-96, solver.py:88-91, 245-263. -/
noncomputable def runV (ops : List Op) (s : Session Series) : Session Series := ops.foldl (fun s op => stepV op s) s

end Qtune.Sharing
