import Verif.Base
import Mathlib.Data.List.Infix

/-!
# Model of `History.plot_tuning` and of the parameter and gradient windows

A figure is the list of its axes.  `T` are the columns of the history.
-/

namespace Qtune.History.TuningPlot

/-- An entry of `parameter_information` (history.py:38-99). -/
structure Info where
  unit : String
  name : String
  gradientUnit : String

/-- `parameter_information` (history.py:38-99). -/
def informationTable : List (String × Info) := [
  ("origin x", ⟨"Transition Position Lead A (V)", "Transition Position Lead A", "Gradient Transition Lead A (V/V)"⟩),
  ("origin y", ⟨"Transition Position Lead B (V)", "Transition Position Lead B", "Gradient Transition Lead B (V/V)"⟩),
  ("tunnel_coupling", ⟨"Transition Position Lead B (V)", "Transition Position Lead B", "Gradient Transition Lead B (V/V)"⟩),
  ("lead time", ⟨"Transition Position Lead B (V)", "Transition Position Lead B", "Gradient Transition Lead B (V/V)"⟩),
  ("position_RFA", ⟨"Transition Position Lead A (V)", "Transition Position Lead A", "Gradient Transition Lead A (V/V)"⟩),
  ("position_RFB", ⟨"Transition Position Lead B (V)", "Transition Position Lead B", "Gradient Transition Lead B (V/V)"⟩),
  ("parameter_tunnel_coupling", ⟨"Tunnel Coupling (\\mu V)", "Inter-Dot Tunnel Coupling AB", "Gradient Tunnel Coupling (\\mu V / V)"⟩),
  ("current_signal", ⟨"Signal (a.u.)", "Current SDot Signal", "Gradient Current SDot Signal (a.u.)"⟩),
  ("optimal_signal", ⟨"Signal (a.u.)", "Optimal SDot Signal", "Gradient Optimal SDot Signal (a.u.)"⟩),
  ("position_SDB2", ⟨"Voltage (V)", "Voltage on SDB2", "Gradient Voltage on SDB2 (V/V)"⟩),
  ("position_SDB1", ⟨"Voltage (V)", "Voltage on SDB1", "Gradient Voltage on SDB1 (V/V)"⟩),
  ("parameter_time_load", ⟨"Time (ns)", "Singlet Reload Time", "Gradient Singlet Reload Time(ns/V)"⟩)]

/-- Looking up a name in `parameter_information`; `none` stands for `KeyError`. history.py:506, 507, 530 -/
def parameterInformation (name : String) : Option Info := informationTable.lookup name

/-- Axes with title, label and curves: label, values and error bars. -/
structure Axis (T : Type) where
  title : String
  ylabel : String
  curves : List (String × T × Option T)

/-- What the plots ask the history (history.py:162-171, 197-239).  Simplification: the sets of names are given by
their sorted lists; `std` are the columns of the variances after `sqrt`, `gradErrors` the tables of `get_gradient_variances` after `sqrt`
(history.py:525). -/
structure Source (T : Type) where
  gates : List String
  params : List String
  gradParams : List String
  column : String → Option T
  std : String → Option T
  grads : String → List (String × T)
  gradErrors : String → List (String × T)

variable {T : Type}

/-- `part in mode` for strings.  history.py:365-378. -/
def inMode (part mode : String) : Bool := decide (part.toList <:+: mode.toList)

/-- `data_frame[names]` or a dictionary of columns: `KeyError` if one is missing (history.py:384, 391-395). -/
def columns (f : String → Option T) : List String → Except PyErr (List (String × T))
  | [] => .ok []
  | a :: l => match f a with
    | none => .error .keyError
    | some x => match columns f l with
      | .error e => .error e
      | .ok r => .ok ((a, x) :: r)

/-- `plot_voltages` (history.py:484-491). -/
def plotVoltages (d : Source T) (names : List String) : Except PyErr (Axis T) :=
  match columns d.column names with
  | .error e => .error e
  | .ok cs => .ok ⟨"Gate Voltages", "Voltage (V)", cs.map fun c => (c.1, c.2, none)⟩

/-- The loop that labels the axes (history.py:505-507). -/
def parameterAxes (info : String → Option Info) (std : List (String × T)) : List (String × T) → Except PyErr (List (Axis T))
  | [] => .ok []
  | (a, x) :: l => match info a with
    | none => .error .keyError
    | some i => match parameterAxes info std l with
      | .error e => .error e
      | .ok r => .ok (⟨i.name, i.unit, [(a, x, std.lookup a)]⟩ :: r)

/-- `plot_parameters` after the columns have been taken (history.py:494-509): `subplots` without rows raises. -/
def plotParameters (info : String → Option Info) (cs std : List (String × T)) : Except PyErr (List (Axis T)) :=
  match cs with
  | [] => .error .valueError
  | _ => parameterAxes info std cs

/-- The loop of `plot_gradients` (history.py:523-530): a table without columns cannot be plotted. -/
def gradientAxes (d : Source T) (info : String → Option Info) (errors : Bool) : List String → Except PyErr (List (Axis T))
  | [] => .ok []
  | a :: l => match d.grads a with
    | [] => .error .typeError
    | g => match info a with
      | none => .error .keyError
      | some i => match gradientAxes d info errors l with
        | .error e => .error e
        | .ok r => .ok (⟨"", i.gradientUnit, g.map fun c => (c.1, c.2, if errors then (d.gradErrors a).lookup c.1 else none)⟩ :: r)

/-- `grad_ax[0].set_title` (history.py:531). -/
def headline : List (Axis T) → List (Axis T)
  | [] => []
  | a :: l => { a with title := "Response Matrix" } :: l

/-- What `subplots(nrows=n)` gives (history.py:500, 519, gui.py:312): nothing but an exception, one single axes, which
cannot be iterated over, or an array. -/
inductive Rows
  | none
  | single
  | array

/-- `subplots(nrows=n)` of matplotlib. history.py:519, gui.py:312. -/
def subplots : Nat → Rows
  | 0 => .none
  | 1 => .single
  | _ => .array

/-- `plot_gradients` (history.py:512-533) for names without repetition. -/
def plotGradients (d : Source T) (info : String → Option Info) (errors : Bool) (rows : Rows) (names : List String) :
    Except PyErr (List (Axis T)) :=
  match rows with
  | .none => .error .valueError
  | .single => .error .typeError
  | .array => match gradientAxes d info errors names with
    | .error e => .error e
    | .ok r => .ok (headline r)

/-- Optional parts of a plot (history.py:380-408). -/
def optional {A B : Type} (f : A → Except PyErr B) : Option A → Except PyErr (Option B)
  | none => .ok none
  | some a => match f a with
    | .error e => .error e
    | .ok b => .ok (some b)

/-- The three figures of `plot_tuning`. history.py:410 -/
structure Figures (T : Type) where
  voltages : Option (Axis T)
  parameters : Option (List (Axis T))
  gradients : Option (List (Axis T))

/-- The figure of the parameters (history.py:390-395), with the errors of the measurements if the mode says so. -/
def parametersWithErrors (d : Source T) (info : String → Option Info) (errors : Bool) (names : List String) :
    Except PyErr (List (Axis T)) :=
  match (if errors then columns d.std names else .ok []) with
  | .error e => .error e
  | .ok std =>
    match columns d.column names with
    | .error e => .error e
    | .ok cs => plotParameters info cs std

/-- `plot_tuning` (history.py:351-410). -/
def plotTuning (d : Source T) (info : String → Option Info) (volts params grads : Option (List String)) (mode : String) :
    Except PyErr (Figures T) :=
  let volts := if inMode "all_voltages" mode then some d.gates else volts                                    -- lines 365-366
  let params := if inMode "all_parameters" mode then some d.params else params                               -- lines 367-368
  let grads := if inMode "all_gradients" mode then some d.gradParams else grads                              -- lines 369-370
  match optional (plotVoltages d) volts with
  | .error e => .error e
  | .ok v =>
    match optional (parametersWithErrors d info (inMode "with_par_variances" mode)) params with             -- lines 386-395
    | .error e => .error e
    | .ok p =>
      match optional (fun names => plotGradients d info (inMode "with_grad_covariances" mode) (subplots names.length) names)
        grads with
      | .error e => .error e
      | .ok g => .ok ⟨v, p, g⟩

/-- `GradientWidget.refresh` (gui.py:346-356) with `get_clear_axes` (gui.py:303-312); the figure has `axes` axes and afterwards the
number that is returned.  Exceptions are logged. -/
def gradientWindow (d : Source T) (info : String → Option Info) (axes : Nat) (names : List String) :
    Nat × Except PyErr (List (Axis T)) :=
  if axes = names.length then
    (axes, match gradientAxes d info true names with
      | .error e => .error e
      | .ok [] => .error .indexError
      | .ok r => .ok (headline r))
  else (names.length, plotGradients d info true (subplots names.length) names)

end Qtune.History.TuningPlot
