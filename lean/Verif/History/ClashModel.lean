import Verif.History.GapModel
import Verif.Series

/-!
# Histories of hierarchies in which a parameter belongs to several tuners (history.py:241-325, 540-554)

`History.Model` and `History.GapModel` assume that every parameter is recorded for one tuner only.  The Series of all parameters is built with
`Series.append`, which keeps entries of the same name; here this case is modelled.
-/

namespace Qtune.History

variable {γ κ ρ π W X V P C : Type}

/-- What decides which parameters of a tuner are recorded: the column `desired` of the target for a `SubsetTuner`, the measured parameters for
every other tuner.  history.py:545-552. -/
inductive Recording
  | subset (desired : Series)
  | other (measured : Series)

/-- The names of the recorded parameters of one tuner (history.py:545-552).  Simplification: the index of the target has no name twice. -/
def Recording.names : Recording → List String
  | .subset desired => (desired.filter fun e => e.2.isSome).map Prod.fst
  | .other measured => measured.map Prod.fst

/-- What `append_autotuner` reads of an autotuner, with the parameters of the tuners. history.py:536-570. -/
structure CView (γ κ ρ : Type) extends GView γ κ ρ where
  recordings : List Recording

/-- A name occurs twice in the index of `parameters` (history.py:540-554).  `dict(parameters)` (line 272) then has a Series with both entries as
value of this name, and `pd.DataFrame(…, index=[0])` (lines 283-284) raises `ValueError`: cannot reindex from a duplicate axis. -/
def repeated (l : List Recording) : Bool := !decide ((l.map Recording.names).flatten.Nodup)

/-- `append_autotuner` with the history after it (history.py:287-325).  Unknown gradients (`TypeError`, lines 261 and 277) are noticed before
parameters that occur twice. -/
def appendC [DecidableEq γ] (h : Hist γ κ ρ π) (a : CView γ κ ρ) (path : π) : Hist γ κ ρ π × Except PyErr Unit :=
  if h.rows.isEmpty && a.known.any (!·) then (⟨h.rows, h.paths ++ [path]⟩, .error .typeError)      -- lines 302-303
  else if h.rows.isEmpty && repeated a.recordings then (⟨h.rows, h.paths ++ [path]⟩, .error .valueError)
  else
    let h : Hist γ κ ρ π := if h.rows.isEmpty then ⟨[firstRow a.toView], h.paths ++ [path]⟩ else h
    match h.rows.getLast? with
    | none => (h, .error .indexError)
    | some r =>
      if a.voltages = r.voltages then                                                            -- line 311
        let paths := h.paths.dropLast ++ [path]
        match r.tunerIndex with
        | none => (⟨h.rows, paths⟩, .error .valueError)
        | some start =>
          if a.evaluated = 0 then (⟨h.rows.dropLast ++ [{ r with voltages := a.voltages }], paths⟩, .ok ())
          else if (slice a.known start a.evaluated).any (!·) then (⟨h.rows, paths⟩, .error .typeError)
          else if repeated (slice a.recordings start a.evaluated) then (⟨h.rows, paths⟩, .error .valueError)
          else (⟨h.rows.dropLast ++ [r.update a.toView (slice a.tuners start a.evaluated)], paths⟩, .ok ())
      else
        let paths := h.paths ++ [path]                                                           -- line 322
        if a.evaluated ≠ 0 ∧ (slice a.known 0 a.evaluated).any (!·) then (⟨h.rows, paths⟩, .error .typeError)
        else if a.evaluated ≠ 0 ∧ repeated (slice a.recordings 0 a.evaluated) then (⟨h.rows, paths⟩, .error .valueError)
        else (⟨h.rows ++ [newRow a.toView], paths⟩, .ok ())

/-- A sequence of appended autotuners; the caller catches exceptions and goes on (gui.py:717-724). -/
def appendsC [DecidableEq γ] (h : Hist γ κ ρ π) : List (CView γ κ ρ × π) → Hist γ κ ρ π × List (Except PyErr Unit)
  | [] => (h, [])
  | a :: l => ((appendsC (appendC h a.1 a.2).1 l).1, (appendC h a.1 a.2).2 :: (appendsC (appendC h a.1 a.2).1 l).2)

/-- What the history reads of an autotuner (history.py:536-570). -/
def Reader.cview (R : Reader W γ κ ρ) (known : W → Nat → Bool) (recordings : W → List Recording) (H : Autotuner.Hierarchy W X V P C)
    (s : Autotuner.State W X V) : CView γ κ ρ :=
  ⟨R.gview known H s, recordings s.tuners⟩

/-- The autotuner and its history while the user works: any calls of methods, and after each of them the autotuner may be appended to the history
(gui.py:713-724); exceptions are caught.  Returns the autotuner, the history and the outcomes of the appends. -/
def session [DecidableEq γ] (R : Reader W γ κ ρ) (known : W → Nat → Bool) (recordings : W → List Recording)
    (H : Autotuner.Hierarchy W X V P C) : Autotuner.State W X V → Hist γ κ ρ π → List (Autotuner.Op X C × Option π) →
    Autotuner.State W X V × Hist γ κ ρ π × List (Except PyErr Unit)
  | s, h, [] => (s, h, [])
  | s, h, (op, none) :: l => session R known recordings H (Autotuner.step H s op).1 h l
  | s, h, (op, some path) :: l =>
    let s := (Autotuner.step H s op).1
    let r := appendC h (R.cview known recordings H s) path
    let q := session R known recordings H s r.1 l
    (q.1, q.2.1, r.2 :: q.2.2)

end Qtune.History
