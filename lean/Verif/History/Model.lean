import Verif.Autotuner.Model
import Mathlib.Data.List.Defs

/-!
# Model of `qtune.history.History` (history.py:122-349, 536-599)

`γ` is the type of the voltages of the gates (`pd.Series`, compared with `Series.equals`), `κ` the type of
the names of the columns, `ρ` the type of the values and `π` the type of the paths.
-/

namespace Qtune.History

/-- What `append_autotuner` reads of an autotuner: the last voltages of the first tuner
(`extract_voltages_from_hierarchy`, history.py:536-537), for each tuner its parameters with variances,
gradients and covariances (`extract_parameters_from_hierarchy`, `extract_gradients_from_hierarchy`,
history.py:540-570) by the names of the columns, `current_tuner_index`, `voltages_to_set is not None`, and
`current_tuner_status`.  Simplification: the raw data of the evaluators is not modelled, and every
gradient estimator has an estimate (without it see `History.GapModel`); no parameter belongs to two tuners (otherwise see
`History.ClashModel`). -/
structure View (γ κ ρ : Type) where
  voltages : γ
  tuners : List (List (κ × ρ))
  index : Nat
  pending : Bool
  status : Bool

/-- A row of the data frame.  `tunerIndex` is the column `tuner_index`, `none` for `NaN`; other columns
without value are not in `cells`.  Simplification: no parameter has the name of a gate or is called `tuner_index`.
history.py:241-285. -/
structure Row (γ κ ρ : Type) where
  voltages : γ
  cells : List (κ × ρ)
  tunerIndex : Option Nat

/-- A history: the data frame and the paths (history.py:140-148), newest last. -/
structure Hist (γ κ ρ π : Type) where
  rows : List (Row γ κ ρ)
  paths : List π

variable {γ κ ρ π : Type}

/-- The empty history (history.py:137-148). -/
def Hist.empty : Hist γ κ ρ π := ⟨[], []⟩

/-- The number of tuners that have been evaluated (history.py:297-299). -/
def View.evaluated (a : View γ κ ρ) : Nat := if a.pending || a.status then a.index + 1 else a.index

/-- The values of some tuners in one row; a later tuner overwrites the values of an earlier one.
history.py:540-570. -/
def columns (tuners : List (List (κ × ρ))) : List (κ × ρ) := tuners.reverse.flatten

/-- `self._data_frame.loc[index, columns] = …`: the new values are found first.  history.py:311-320. -/
def Row.update (r : Row γ κ ρ) (a : View γ κ ρ) (tuners : List (List (κ × ρ))) : Row γ κ ρ :=
  ⟨a.voltages, columns tuners ++ r.cells, some a.index⟩

/-- `tuning_hierarchy[start:stop]`.  history.py:311-320. -/
def slice {β : Type} (l : List β) (start stop : Nat) : List β := (l.take stop).drop start

/-- `append_autotuner` for the last row (history.py:311-320, 241-285): the voltages are the same.  If no tuner
was evaluated only the voltages are written (lines 252-254); `int(start)` raises `ValueError` if
`tuner_index` is `NaN` (line 265 or, if no tuner was evaluated, line 583). -/
def stay (r : Row γ κ ρ) (a : View γ κ ρ) : Except PyErr (Row γ κ ρ) :=
  match r.tunerIndex with
  | none => .error .valueError
  | some start =>
    if a.evaluated = 0 then .ok { r with voltages := a.voltages }
    else .ok (r.update a (slice a.tuners start a.evaluated))

/-- A new row (history.py:321-325). -/
def newRow (a : View γ κ ρ) : Row γ κ ρ :=
  if a.evaluated = 0 then ⟨a.voltages, [], none⟩
  else ⟨a.voltages, columns (slice a.tuners 0 a.evaluated), some a.index⟩

/-- The first row (history.py:302-304): all tuners. -/
def firstRow (a : View γ κ ρ) : Row γ κ ρ := ⟨a.voltages, columns a.tuners, some a.index⟩

/-- `append_autotuner` (history.py:287-325). -/
def append [DecidableEq γ] (h : Hist γ κ ρ π) (a : View γ κ ρ) (path : π) : Except PyErr (Hist γ κ ρ π) :=
  let h : Hist γ κ ρ π := if h.rows.isEmpty then ⟨[firstRow a], [path]⟩ else h
  match h.rows.getLast? with
  | none => .error .indexError
  | some r =>
    if a.voltages = r.voltages then
      match stay r a with
      | .error e => .error e
      | .ok r' => .ok ⟨h.rows.dropLast ++ [r'], h.paths.dropLast ++ [path]⟩
    else .ok ⟨h.rows ++ [newRow a], h.paths ++ [path]⟩

/-- `append_autotuner` for several autotuners, as in `load_directory` (history.py:327-338). -/
def appendAll [DecidableEq γ] (h : Hist γ κ ρ π) : List (View γ κ ρ × π) → Except PyErr (Hist γ κ ρ π)
  | [] => .ok h
  | (a, path) :: l =>
    match append h a path with
    | .error e => .error e
    | .ok h => appendAll h l

/-! ## `get_gradients` (history.py:206-214) -/

/-- Names of columns (history.py:126-128). -/
abbrev Name := List Char

/-- Characters that `[\w\s\d]` matches.  Simplification: only ASCII.  history.py:212-213. -/
def wordOrSpace (c : Char) : Bool := c.isAlphanum || c == '_' || c.isWhitespace

/-- `_gradient_name.format(parameter_name=…, gate_name=…)` (history.py:127). -/
def gradientName (parameter gate : Name) : Name := parameter ++ '#' :: (gate ++ "#grad".toList)

/-- `_gradient_covariance_name.format(…)` (history.py:128). -/
def covarianceName (parameter gate₁ gate₂ : Name) : Name :=
  parameter ++ '#' :: (gate₁ ++ '#' :: (gate₂ ++ "#cov".toList))

/-- `_parameter_variance_name.format(…)` (history.py:126). -/
def varianceName (parameter : Name) : Name := parameter ++ "#var".toList

/-- A match of the regular expression at the beginning of the text: the gate.  Simplification: the name of the
parameter has no special characters of regular expressions (it is not escaped).  history.py:212-214. -/
def matchAt (parameter text : Name) : Option Name :=
  if (parameter ++ ['#']).isPrefixOf text then
    let rest := text.drop (parameter.length + 1)
    let gate := rest.takeWhile wordOrSpace
    if gate ≠ [] ∧ "#grad".toList.isPrefixOf (rest.dropWhile wordOrSpace) then some gate else none
  else none

/-- `re.search`: the first match anywhere in the text.  Used in history.py:214. -/
def search (parameter text : Name) : Option Name := text.tails.findSome? (matchAt parameter)

/-- `get_gradients`: the columns whose names match, with the new names.  history.py:206-214. -/
def getGradients (parameter : Name) (cols : List Name) : List (Name × Name) :=
  cols.filterMap fun c => (search parameter c).map fun g => (g, c)

end Qtune.History
