import Verif.Gui.PlotModel

/-! # Specification: what the plot should show -/

namespace Qtune.Gui.Plot

variable {T : Type}

/-- The items of the plot.  A user knows them by what they show, not by their keys. -/
inductive Item
  | gate (g : String)
  | param (p : String)
  | paramBars (p : String)
  | grad (p g : String)
  | gradBars (p g : String)
deriving DecidableEq

/-- The key of an item. -/
def Item.key : Item → String
  | .gate g => g
  | .param p => p
  | .paramBars p => p ++ "#err_bar"
  | .grad p g => p ++ "#" ++ g
  | .gradBars p g => p ++ "#" ++ g ++ "#err_bar"

/-- The items that can be selected. -/
def Selection.Offers (sel : Selection) : Item → Prop
  | .gate g => ∃ b, (g, b) ∈ sel.gates
  | .param p => ∃ c, (p, c) ∈ sel.params
  | .paramBars p => ∃ c, (p, c) ∈ sel.params
  | .grad p g => ∃ l c, (p, l) ∈ sel.grads ∧ (g, c) ∈ l
  | .gradBars p g => ∃ l c, (p, l) ∈ sel.grads ∧ (g, c) ∈ l

/-- The item is selected and `d` are the data of the history for it. -/
def Wanted (H : Source T) (sel : Selection) : Item → Drawn T → Prop
  | .gate g, d => (g, true) ∈ sel.gates ∧ ∃ x, H.gate g = .ok x ∧ d = .curve x
  | .param p, d => ((p, Choice.plot) ∈ sel.params ∨ (p, Choice.plotError) ∈ sel.params) ∧
      ∃ x, H.param p = .ok x ∧ d = .curve x
  | .paramBars p, d => (p, Choice.plotError) ∈ sel.params ∧
      ∃ x y, H.param p = .ok x ∧ H.std p = .ok y ∧ d = .bars x y
  | .grad p g, d => ∃ l, (p, l) ∈ sel.grads ∧ ((g, Choice.plot) ∈ l ∨ (g, Choice.plotError) ∈ l) ∧
      ∃ f x, H.grads p = .ok f ∧ f g = some x ∧ d = .curve x
  | .gradBars p g, d => ∃ l, (p, l) ∈ sel.grads ∧ (g, Choice.plotError) ∈ l ∧
      ∃ f e x y, H.grads p = .ok f ∧ H.gradErrors p = .ok e ∧ f g = some x ∧ e g = some y ∧ d = .bars x y

/-- The plot shows the selected items with the data of the history, and nothing else. -/
def Displays (H : Source T) (sel : Selection) (plots : Plots T) : Prop :=
  (∀ i, sel.Offers i → ∀ d, plots i.key = some d ↔ Wanted H sel i d) ∧
    ∀ k d, plots k = some d → ∃ i, sel.Offers i ∧ i.key = k

/-- The history has the data: of what is selected, and tables for all gradients. -/
structure Available (H : Source T) (sel : Selection) : Prop where
  gates : ∀ g, (g, true) ∈ sel.gates → ∃ d, H.gate g = .ok d
  params : ∀ p c, (p, c) ∈ sel.params → c ≠ Choice.nothing → ∃ d, H.param p = .ok d
  errors : ∀ p, (p, Choice.plotError) ∈ sel.params → ∃ d, H.std p = .ok d
  grads : ∀ p l, (p, l) ∈ sel.grads → ∃ f e, H.grads p = .ok f ∧ H.gradErrors p = .ok e ∧
    ∀ g c, (g, c) ∈ l → c ≠ Choice.nothing → ∃ d, f g = some d

/-- The plot shows only items that can be selected, and error bars only where they belong. -/
def Regular (sel : Selection) (plots : Plots T) : Prop :=
  ∀ k d, plots k = some d → ∃ i, sel.Offers i ∧ i.key = k ∧
    match i, d with
    | .gate _, .curve _ | .param _, .curve _ | .grad _ _, .curve _ => True
    | .paramBars _, .bars _ _ | .gradBars _ _, .bars _ _ => True
    | _, _ => False

/-- Every entry appears once in the tree. -/
structure Selection.Once (sel : Selection) : Prop where
  gates : (sel.gates.map Prod.fst).Nodup
  params : (sel.params.map Prod.fst).Nodup
  grads : (sel.grads.map Prod.fst).Nodup
  grad : ∀ p l, (p, l) ∈ sel.grads → (l.map Prod.fst).Nodup

/-- The two selections are choices in the same tree. -/
def Selection.SameTree (s t : Selection) : Prop := ∀ i, s.Offers i ↔ t.Offers i

/-- Names of gates and parameters: different from each other, without the sign `#`, and no gate is
called `err_bar`. -/
structure Selection.Named (sel : Selection) : Prop where
  different : ∀ g b c, (g, b) ∈ sel.gates → (g, c) ∉ sel.params
  gate : ∀ g b, (g, b) ∈ sel.gates → '#' ∉ g.toList
  param : ∀ p c, (p, c) ∈ sel.params → '#' ∉ p.toList
  gradient : ∀ p l, (p, l) ∈ sel.grads → '#' ∉ p.toList ∧ ∀ g c, (g, c) ∈ l → '#' ∉ g.toList ∧ g ≠ "err_bar"

end Qtune.Gui.Plot
