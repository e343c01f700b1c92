import Verif.History.Model
import Verif.History.Spec

/-!
# Histories of autotuners some of whose gradients are not known yet

`History.Model` assumes that every gradient estimator has an estimate.  Finite difference estimators have none before
they have measured enough points (gradient.py:98-124).  Here exceptions are caught by the caller, as in the worker of
the user interface (gui.py:713-724), so that the state after an exception matters.
-/

namespace Qtune.History

/-- What `append_autotuner` reads of an autotuner; `known i`: all gradient estimators of tuner `i` have an estimate
(history.py:557-570). -/
structure GView (γ κ ρ : Type) extends View γ κ ρ where
  known : List Bool

variable {γ κ ρ π W X V P C : Type}

/-- `append_autotuner` with the history after it (history.py:287-325).  Reading the gradients of a tuner of which
one is not known raises `TypeError`: the class `pd.Series` is stored instead of an empty series (lines 562, 566), which has
no index (line 261) and whose `items` needs an argument (line 277).  The path has been stored before
(lines 302, 313, 322).  If no tuner was evaluated the gradients are not read (lines 252-254). -/
def appendG [DecidableEq γ] (h : Hist γ κ ρ π) (a : GView γ κ ρ) (path : π) : Hist γ κ ρ π × Except PyErr Unit :=
  if h.rows.isEmpty && a.known.any (!·) then (⟨h.rows, h.paths ++ [path]⟩, .error .typeError)      -- lines 302-303
  else
    let h : Hist γ κ ρ π := if h.rows.isEmpty then ⟨[firstRow a.toView], h.paths ++ [path]⟩ else h
    match h.rows.getLast? with
    | none => (h, .error .indexError)
    | some r =>
      if a.voltages = r.voltages then                                                            -- line 311
        let paths := h.paths.dropLast ++ [path]
        match r.tunerIndex with
        | none => (⟨h.rows, paths⟩, .error .valueError)
        | some start =>
          if a.evaluated = 0 then (⟨h.rows.dropLast ++ [{ r with voltages := a.voltages }], paths⟩, .ok ())
          else if (slice a.known start a.evaluated).any (!·) then (⟨h.rows, paths⟩, .error .typeError)
          else (⟨h.rows.dropLast ++ [r.update a.toView (slice a.tuners start a.evaluated)], paths⟩, .ok ())
      else
        let paths := h.paths ++ [path]                                                           -- line 322
        if a.evaluated ≠ 0 ∧ (slice a.known 0 a.evaluated).any (!·) then (⟨h.rows, paths⟩, .error .typeError)
        else (⟨h.rows ++ [newRow a.toView], paths⟩, .ok ())

/-- `get_reload_path` (history.py:187-188): the file that the user interface loads for a row (gui.py:463). -/
def Hist.reloadPath (h : Hist γ κ ρ π) (k : Nat) : Option π := h.paths[k]?

/-- A sequence of appended autotuners; the caller catches exceptions and goes on (gui.py:717-724). -/
def appendsG [DecidableEq γ] (h : Hist γ κ ρ π) : List (GView γ κ ρ × π) → Hist γ κ ρ π × List (Except PyErr Unit)
  | [] => (h, [])
  | a :: l => ((appendsG (appendG h a.1 a.2).1 l).1, (appendG h a.1 a.2).2 :: (appendsG (appendG h a.1 a.2).1 l).2)

/-- What the history reads of an autotuner (history.py:536-570). -/
def Reader.gview (R : Reader W γ κ ρ) (known : W → Nat → Bool) (H : Autotuner.Hierarchy W X V P C)
    (s : Autotuner.State W X V) : GView γ κ ρ :=
  ⟨R.view H s, (List.range H.len).map (known s.tuners)⟩

/-- `k` rounds of the worker of the user interface (gui.py:713-724): `iterate`, then `append_autotuner`; after an
exception the user starts the worker again. Returns state, history and the outcomes of the appends. -/
def watched [DecidableEq γ] (R : Reader W γ κ ρ) (known : W → Nat → Bool) (H : Autotuner.Hierarchy W X V P C)
    (path : Nat → π) (s₀ : Autotuner.State W X V) :
    Nat → Autotuner.State W X V × Hist γ κ ρ π × List (Except PyErr Unit)
  | 0 => (s₀, Hist.empty, [])
  | k + 1 =>
    match watched R known H path s₀ k with
    | (s, h, outs) =>
      match Autotuner.iterate H (.ok ()) s with
      | (s', _, .error _) => (s', h, outs)
      | (s', _, .ok ()) =>
        (s', (appendG h (R.gview known H s') (path k)).1, outs ++ [(appendG h (R.gview known H s') (path k)).2])

end Qtune.History
