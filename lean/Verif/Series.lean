import Mathlib.Data.Real.Basic
import Verif.Base

/-!
# Floating point values and labelled series

`Val` is an exact real number or NaN (`none`).  `Series` is a pandas Series with string
labels.  Simplification: no rounding, no infinities.
-/

namespace Qtune

/-- A float: `none` is NaN.
Entries of the Series in parameter_tuner.py, solver.py and gradient.py; for example parameter_tuner.py:222-277. -/
abbrev Val := Option ℝ

namespace Val

/-- Arithmetic propagates NaN.  As in solver.py:232. -/
noncomputable def add (a b : Val) : Val := a.bind fun x => b.map fun y => x + y
/-- Arithmetic propagates NaN.  As in parameter_tuner.py:248. -/
noncomputable def sub (a b : Val) : Val := a.bind fun x => b.map fun y => x - y
/-- Arithmetic propagates NaN.  As in solver.py:150-151. -/
noncomputable def mul (a b : Val) : Val := a.bind fun x => b.map fun y => x * y
/-- Arithmetic propagates NaN.  Simplification: a quotient with divisor 0, which is an
infinity or NaN in floating point arithmetic, is NaN here.  As in solver.py:138-139. -/
noncomputable def div (a b : Val) : Val :=
  a.bind fun x => b.bind fun y => if y = 0 then none else some (x / y)

/-- `abs`.  As in parameter_tuner.py:248. -/
noncomputable def abs (a : Val) : Val := a.map fun x => |x|

/-- `a <= b`, false if one of them is NaN.  As in parameter_tuner.py:357. -/
def LE (a b : Val) : Prop := ∃ x y, a = some x ∧ b = some y ∧ x ≤ y

@[simp] theorem add_some (x y : ℝ) : add (some x) (some y) = some (x + y) := rfl
@[simp] theorem sub_some (x y : ℝ) : sub (some x) (some y) = some (x - y) := rfl
@[simp] theorem mul_some (x y : ℝ) : mul (some x) (some y) = some (x * y) := rfl
@[simp] theorem add_none_left (b : Val) : add none b = none := rfl
@[simp] theorem sub_none_left (b : Val) : sub none b = none := rfl
@[simp] theorem mul_none_left (b : Val) : mul none b = none := rfl
@[simp] theorem div_none_left (b : Val) : div none b = none := rfl
@[simp] theorem add_none_right (a : Val) : add a none = none := by cases a <;> rfl
@[simp] theorem sub_none_right (a : Val) : sub a none = none := by cases a <;> rfl
@[simp] theorem mul_none_right (a : Val) : mul a none = none := by cases a <;> rfl
@[simp] theorem div_none_right (a : Val) : div a none = none := by cases a <;> rfl
theorem div_some {x y : ℝ} (hy : y ≠ 0) : div (some x) (some y) = some (x / y) := by
  simp [div, hy]

end Val

/-- A pandas Series with string labels, in index order.  As in parameter_tuner.py:152-164. -/
abbrev Series := List (String × Val)

namespace Series

/-- `series.index`.  As in solver.py:138. -/
def index (s : Series) : List String := s.map Prod.fst

/-- The entry with label `l`; NaN if there is no such label (the rule that pandas applies
when series are aligned or looked up with a list of labels).  As in solver.py:138. -/
def val (s : Series) (l : String) : Val := (s.lookup l).join

/-- `series[labels]` with a list of labels (pandas 0.24): labels that are missing give NaN;
if all are missing `KeyError` is raised.  As in parameter_tuner.py:164, solver.py:252. -/
def select (s : Series) (labels : List String) : Except PyErr Series :=
  if labels ≠ [] ∧ labels.all (fun l => (s.lookup l).isNone) then .error .keyError
  else .ok (labels.map fun l => (l, s.val l))

theorem lookup_map_mk (labels : List String) (f : String → Val) (l : String) :
    (labels.map fun l => (l, f l)).lookup l = if l ∈ labels then some (f l) else none := by
  induction labels with
  | nil => simp
  | cons a t ih =>
    by_cases h : l = a
    · subst h; simp
    · simp [List.lookup_cons, h, ih, beq_eq_false_iff_ne.2 h]

theorem val_map_mk (labels : List String) (f : String → Val) (l : String) :
    Series.val (labels.map fun l => (l, f l)) l = if l ∈ labels then f l else none := by
  unfold Series.val
  rw [lookup_map_mk]
  split <;> rfl

theorem index_map_mk (labels : List String) (f : String → Val) :
    Series.index (labels.map fun l => (l, f l)) = labels := by
  simp [Series.index, Function.comp_def]

theorem select_ok {s t : Series} {labels : List String} (h : s.select labels = .ok t) :
    t = labels.map fun l => (l, s.val l) := by
  unfold select at h
  split at h
  · cases h
  · cases h; rfl

end Series

/-- One row of a target table.  solver.py:66-71. -/
structure Row where
  name : String
  desired : Val
  minimum : Val
  maximum : Val
  tolerance : Val
  costThreshold : Val
  rescaling : Val

/-- A target table as built by `make_target` (solver.py:30-72). -/
abbrev Target := List Row

namespace Target

/-- Column names of the table, as accessors, in the order of solver.py:66-71. -/
def columns : List (Row → Val) :=
  [Row.desired, Row.minimum, Row.maximum, Row.tolerance, Row.costThreshold, Row.rescaling]

/-- `target.index`.  solver.py:71. -/
def names (T : Target) : List String := T.map Row.name

/-- The row with the given name.  As in parameter_tuner.py:248. -/
def row? (T : Target) (l : String) : Option Row := T.find? fun r => r.name == l

/-- `target.drop([all-NaN columns]).dropna().index`: the rows that have an entry in every
column that is not NaN throughout (autotuner.py:145-147, parameter_tuner.py:63-64). -/
def relevant (T : Target) : List String :=
  names (T.filter fun r => columns.all fun c => T.all (fun r' => (c r').isNone) || (c r).isSome)

end Target

end Qtune
