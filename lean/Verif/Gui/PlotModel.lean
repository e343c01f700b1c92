import Verif.Base
import Mathlib.Logic.Function.Basic

/-!
# Model of the plots of the gui (PlotOrganizer)

The widgets of pyqtgraph are represented by the dictionary `_plots` of the items that are shown.  Colours and the
legend are left out.
-/

namespace Qtune.Gui.Plot

/-- An item of the plot: a curve (`plot_item.plot`, gui.py:155, 166, 200) or error bars (`pg.ErrorBarItem`,
gui.py:181, 214) with the values of the curve and their errors. -/
inductive Drawn (T : Type)
  | curve (data : T)
  | bars (data error : T)

/-- `_plots`: the items that are shown, by their keys (gui.py:275).  Simplification: a function instead of a
dictionary. -/
abbrev Plots (T : Type) := String → Option (Drawn T)

/-- The choices in the tree of parameters (gui.py:243-252). -/
inductive Choice
  | nothing
  | plot
  | plotError
deriving DecidableEq

/-- `startswith('plot')` (gui.py:161, 194). -/
def Choice.plots : Choice → Bool
  | .nothing => false
  | _ => true

/-- `endswith('error')` (gui.py:172, 204). -/
def Choice.errors : Choice → Bool
  | .plotError => true
  | _ => false

/-- What is selected: `self.parameter.getValues()` (gui.py:144, 238-254). -/
structure Selection where
  gates : List (String × Bool)
  params : List (String × Choice)
  grads : List (String × List (String × Choice))

/-- What `refresh` asks the history (history.py:188-239); `none` in a table of gradients is a missing column.
`std` are the errors in gui.py:173, `sqrt` of variances gui.py:207 is part of `gradErrors`. -/
structure Source (T : Type) where
  gate : String → Except PyErr T
  param : String → Except PyErr T
  std : String → Except PyErr T
  grads : String → Except PyErr (String → Option T)
  gradErrors : String → Except PyErr (String → Option T)

/-- A part of `refresh`: it changes the plots and may raise. -/
abbrev Part (T : Type) := Plots T → Plots T × Except PyErr Unit

variable {T : Type}

/-- One statement after the other. -/
def Part.next (f g : Part T) : Part T := fun p =>
  match f p with
  | (p', .error e) => (p', .error e)
  | (p', .ok ()) => g p'

/-- A `for` loop. -/
def forEach {A : Type} (f : A → Part T) : List A → Part T
  | [] => fun p => (p, .ok ())
  | a :: l => Part.next (f a) (forEach f l)

/-- A value that is fetched, and may raise. -/
def fetch {A : Type} (x : Except PyErr A) (f : A → Part T) : Part T := fun p =>
  match x with
  | .error e => (p, .error e)
  | .ok a => f a p

/-- `_remove_plot` (gui.py:223-227). -/
def remove (k : String) : Part T := fun p => (Function.update p k none, .ok ())

/-- A curve is drawn or gets new data (gui.py:152-155, 163-166, 197-200).  The `setData` of error bars has
no positional argument. -/
def drawCurve (k : String) (d : T) : Part T := fun p =>
  match p k with
  | some (.bars _ _) => (p, .error .typeError)
  | _ => (Function.update p k (some (.curve d)), .ok ())

/-- Error bars are drawn or get new data (gui.py:178-182, 211-215).  The `setData` of a curve takes the
values and ignores the errors. -/
def drawBars (k : String) (d e : T) : Part T := fun p =>
  match p k with
  | some (.curve _) => (Function.update p k (some (.curve d)), .ok ())
  | _ => (Function.update p k (some (.bars d e)), .ok ())

/-- The key of the error bars of a parameter or gradient (gui.py:171, 192). -/
def errKey (k : String) : String := k ++ "#err_bar"

/-- The key of a component of a gradient (gui.py:191). -/
def gradKey (param gate : String) : String := param ++ "#" ++ gate

/-- The loop over the gates (gui.py:148-158). -/
def gatePart (H : Source T) (x : String × Bool) : Part T :=
  if x.2 then fetch (H.gate x.1) (drawCurve x.1) else remove x.1

/-- The loop over the parameters (gui.py:160-185).  The error bars use the data that the curve has got. -/
def paramPart (H : Source T) (x : String × Choice) : Part T :=
  if x.2.plots then
    fetch (H.param x.1) fun d => Part.next (drawCurve x.1 d)
      (if x.2.errors then fetch (H.std x.1) (drawBars (errKey x.1) d) else remove (errKey x.1))
  else Part.next (remove x.1) (remove (errKey x.1))

/-- The loop over the gates of a gradient (gui.py:190-218). -/
def gradPart (param : String) (data errors : String → Option T) (x : String × Choice) : Part T :=
  if x.2.plots then
    fetch (match data x.1 with | none => .error .keyError | some d => .ok d) fun d =>
      Part.next (drawCurve (gradKey param x.1) d)
        (match x.2.errors, errors x.1 with
        | true, some e => drawBars (errKey (gradKey param x.1)) d e
        | _, _ => remove (errKey (gradKey param x.1)))
  else Part.next (remove (gradKey param x.1)) (remove (errKey (gradKey param x.1)))

/-- The loop over the gradients (gui.py:186-218): the tables are fetched whether anything is selected or not. -/
def gradsPart (H : Source T) (x : String × List (String × Choice)) : Part T :=
  fetch (H.grads x.1) fun data => fetch (H.gradErrors x.1) fun errors => forEach (gradPart x.1 data errors) x.2

/-- `PlotOrganizer.refresh` (gui.py:141-218) without the decorator that logs exceptions.  Simplification: the
supply of pens never ends. -/
def refresh (H : Source T) (sel : Selection) : Part T :=
  Part.next (forEach (gatePart H) sel.gates)
    (Part.next (forEach (paramPart H) sel.params) (forEach (gradsPart H) sel.grads))

/-- The gui after a number of refreshs, each with the history and the selection at that time; exceptions are
logged (gui.py:142, 37-50, 229-234). -/
def session (p : Plots T) : List (Source T × Selection) → Plots T
  | [] => p
  | (H, sel) :: l => session (refresh H sel p).1 l

end Qtune.Gui.Plot
