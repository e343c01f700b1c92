import Verif.History.Model

/-!
# Model of the raw data in the history (history.py:142, 287-325, 579-599) and of the windows that show it (gui.py:74-138, 359-385)

`ε` is the type of the names of the evaluators, `δ` the type of what is plotted.
-/

namespace Qtune.History

variable {γ κ ρ π ε δ : Type}

/-- What `append_autotuner` reads of an autotuner, with the raw data of the evaluators of each tuner
(`read_evaluator_data_from_autotuner`, history.py:579-599; `raw_data` is a pair and never `None`, evaluator.py:68-69).
`none`: nothing has been measured yet.  For a `SensingDotTuner` these are the cheap evaluators, and the expensive ones
if `cheap_evaluation_only` is false (C104). -/
structure EView (γ κ ρ ε δ : Type) extends View γ κ ρ where
  evals : List (List (ε × Option δ))

/-- A history with the table of the raw data: its columns and its rows (history.py:142). -/
structure EHist (γ κ ρ π ε δ : Type) where
  hist : Hist γ κ ρ π
  names : List ε
  data : List (List (ε × Option δ))

/-- The empty history (history.py:137-148). -/
def EHist.empty : EHist γ κ ρ π ε δ := ⟨Hist.empty, [], []⟩

/-- `self._evaluator_data.append(…)`: a table without evaluators has no row, so that no row is added.
history.py:309, 325. -/
def EHist.addRow [DecidableEq ε] (h : EHist γ κ ρ π ε δ) (new : List (ε × Option δ)) : EHist γ κ ρ π ε δ :=
  if new = [] then h
  else { h with names := h.names.union (new.map Prod.fst), data := h.data ++ [new] }

/-- `self._evaluator_data.loc[last, columns] = …` (history.py:317-319): `KeyError` if there is no such column. -/
def EHist.setRow [DecidableEq ε] (h : EHist γ κ ρ π ε δ) (new : List (ε × Option δ)) :
    EHist γ κ ρ π ε δ × Except PyErr Unit :=
  if new = [] then (h, .ok ())
  else
    match h.data.getLast? with
    | none => (h, .error .indexError)
    | some r =>
      if ∀ n ∈ new.map Prod.fst, n ∈ h.names then ({ h with data := h.data.dropLast ++ [new ++ r] }, .ok ())
      else (h, .error .keyError)

/-- `append_autotuner` (history.py:287-325) with the history after it.  For the first row all evaluators are read
(lines 302-309).  Simplification: records without data are not distinguished from `NaN`. -/
def appendE [DecidableEq γ] [DecidableEq ε] (h : EHist γ κ ρ π ε δ) (a : EView γ κ ρ ε δ) (path : π) :
    EHist γ κ ρ π ε δ × Except PyErr Unit :=
  let h : EHist γ κ ρ π ε δ :=
    if h.hist.rows.isEmpty then
      EHist.addRow { h with hist := ⟨[firstRow a.toView], h.hist.paths ++ [path]⟩ } (columns a.evals)
    else h
  match h.hist.rows.getLast? with
  | none => (h, .error .indexError)
  | some r =>
    if a.voltages = r.voltages then                                                    -- line 310
      let paths := h.hist.paths.dropLast ++ [path]
      match stay r a.toView, r.tunerIndex with
      | .ok r', some start =>
        EHist.setRow { h with hist := ⟨h.hist.rows.dropLast ++ [r'], paths⟩ }
          (columns (slice a.evals start a.evaluated))
      | .error e, _ => ({ h with hist := ⟨h.hist.rows, paths⟩ }, .error e)
      | _, none => ({ h with hist := ⟨h.hist.rows, paths⟩ }, .error .valueError)
    else
      (EHist.addRow { h with hist := ⟨h.hist.rows ++ [newRow a.toView], h.hist.paths ++ [path]⟩ }
        (columns (slice a.evals 0 a.evaluated)), .ok ())

/-- Several autotuners are appended (history.py:327-338, gui.py:717-724). -/
def appendAllE [DecidableEq γ] [DecidableEq ε] (h : EHist γ κ ρ π ε δ) :
    List (EView γ κ ρ ε δ × π) → Except PyErr (EHist γ κ ρ π ε δ)
  | [] => .ok h
  | (a, path) :: l =>
    match appendE h a path with
    | (_, .error e) => .error e
    | (h', .ok ()) => appendAllE h' l

end Qtune.History
