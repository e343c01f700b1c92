import Verif.Evaluator.FitModel

/-!
# Model of the pictures of raw data (history.py:602-680, 456-463, util.py:211-297, gui.py:304-314, 359-385)

A picture is the list of what was drawn, in this order, and the exception that ended it, if any.  Simplifications: colours, titles, legends
and the length of marks are left out; arrays have at least two points, so that `squeeze` removes only the axis of a single row.
-/

namespace Qtune.Gui.Picture

open Qtune.Evaluator.Fit

/-- What is drawn into an axes: raw data, the fitted curve, the curve with the start values (util.py:244-249), a mark (util.py:272) or an
image with two marks (util.py:284-286). -/
inductive Item
  | data (x y : List Val)
  | fit (x y : List Val)
  | guess (x y : List Val)
  | mark (position : Val)
  | image (x y : List Val) (markY markX : Val)

/-- What was drawn, with the number of the axes, and how it ended (history.py:602-680). -/
structure Drawing where
  items : List (Nat × Item)
  error : Option PyErr

/-- Nothing is drawn and an exception raised (history.py:602-680). -/
def raise (e : PyErr) : Drawing := ⟨[], some e⟩

/-- One part after the other (history.py:642-648). -/
def Drawing.andThen (a b : Drawing) : Drawing :=
  match a.error with
  | some e => ⟨a.items, some e⟩
  | none => ⟨a.items ++ b.items, b.error⟩

/-- The argument `ax` (history.py:450, gui.py:304-314): one axes, the list of the axes of a figure, or an array of axes. -/
inductive Ax
  | single
  | list (n : Nat)
  | array (n : Nat)

/-- A function with keyword arguments that is fitted: the names of its arguments and its value for the points of the scan
(evaluator.py:205-228, 443-444, 503-504). -/
structure Function where
  names : List String
  value : List ℝ → List ℝ → ℝ → ℝ

/-- `func_lead_times_v1` (evaluator.py:205-228). -/
noncomputable def leadTimes : Function :=
  ⟨leadLabels, fun p xs x => leadTimes1 (p.getD 0 0) (p.getD 1 0) (p.getD 2 0) (p.getD 3 0) (p.getD 4 0) (p.getD 5 0) (xs.getLastD 0) x⟩
/-- `func_inter_dot_coupling` (evaluator.py:443-444). -/
noncomputable def coupling : Function :=
  ⟨interDotLabels, fun p _ x => interDotModel (p.getD 0 0) (p.getD 1 0) (p.getD 2 0) (p.getD 3 0) (p.getD 4 0) x⟩
/-- `func_load_time` (evaluator.py:503-504). -/
noncomputable def load : Function := ⟨loadLabels, fun p _ x => loadModel (p.getD 0 0) (p.getD 1 0) (p.getD 2 0) x⟩

/-- `fit_function(x_data, **args)` (util.py:247-249): a `TypeError` for unknown or missing names.  Simplification: NaN in an argument makes
all values NaN, NaN in the points is read as 0. -/
noncomputable def Function.call (f : Function) (x : List Val) (args : Series) : Except PyErr (List Val) :=
  if (∀ k ∈ args.map Prod.fst, k ∈ f.names) ∧ (∀ k ∈ f.names, k ∈ args.map Prod.fst) then
    .ok (match (f.names.map args.val).mapM id with
      | none => x.map fun _ => none
      | some p => (x.map fun v => v.getD 0).map fun t => some (f.value p (x.map fun v => v.getD 0) t))
  else .error .typeError

/-- One of the curves (util.py:246-249): nothing for `None` or an empty Series. -/
noncomputable def curve (f : Function) (k : Nat) (item : List Val → List Val → Item) (x : List Val) : Option Series → Drawing
  | none => ⟨[], none⟩
  | some [] => ⟨[], none⟩
  | some args => match f.call x args with
    | .ok y => ⟨[(k, item x y)], none⟩
    | .error e => raise e

/-- `np.arange(0, n)` (util.py:235, 268). -/
noncomputable def arange (n : Nat) : List Val := (List.range n).map fun (i : Nat) => some (i : ℝ)

/-- The drawing part of `plot_raw_data_fit` (util.py:244-249), for one-dimensional data. -/
noncomputable def plotFit1 (f : Function) (k : Nat) (x y : List Val) (args guess : Option Series) : Drawing :=
  if x.length ≠ y.length then raise .valueError
  else (Drawing.mk [(k, .data x y)] none).andThen ((curve f k .fit x args).andThen (curve f k .guess x guess))

/-- `plot_raw_data_fit` (util.py:211-250). -/
noncomputable def plotFit (f : Function) (k : Nat) (x y : Raw) (args guess : Option Series) : Drawing :=
  match y with
  | .none => ⟨[], none⟩                                                              -- lines 228-229
  | .list _ => raise .attributeError                                                 -- line 230
  | .pair _ _ => raise .attributeError
  | .array a =>
    match x with
    | .none => match a with
      | .more => raise (.runtimeError "Data has too many dimensions and therefore can not be plotted")
      | a => plotFit1 f k (arange a.averaged.length) a.averaged args guess
    | .list _ => raise .attributeError                                               -- line 241
    | .pair _ _ => raise .attributeError
    | .array (.d1 x) => match a with
      | .more => raise (.runtimeError "Data has too many dimensions and therefore can not be plotted")
      | a => plotFit1 f k x a.averaged args guess
    | .array _ => raise (.runtimeError "Data has too many dimensions and therefore can not be plotted")

/-- `plot_raw_data_vertical_marks` (util.py:253-274) for one-dimensional data.  If there are two points, `y_data` becomes a number (lines
265-266), which cannot be drawn over two points. -/
noncomputable def plotMark (k : Nat) (x y : List Val) (position : Val) : Drawing :=
  if y.length = 2 then raise .valueError
  else if x.length ≠ y.length then raise .valueError
  else ⟨[(k, .data x y), (k, .mark position)], none⟩

/-- The entries of a row of the history: what `to_hdf5` returns (evaluator.py:81-87, 124-128, 572-577, 659-664, 764-768, 808-813), as far as
it is drawn.  `measurements` is the number of measurements.  An averaging evaluator has no entry `measurements`. -/
inductive Entry
  | fitting (measurements : Nat) (x y : Raw) (fit guess : Option Series)
  | transition (measurements : Nat) (x y : List (List Val)) (positions : List Val)
  | dot1 (measurements : Nat) (x y : List Val) (optimal : Val)
  | dot2 (measurements : Nat) (x y : List Val) (voltages : Val × Val)
  | averaging (name : String) (inner : Entry)

/-- `measurements` of an evaluator (evaluator.py:59-61); an averaging one has those of the evaluator it repeats (line 782). -/
def Entry.number : Entry → Nat
  | .fitting m _ _ _ _ => m
  | .transition m _ _ _ => m
  | .dot1 m _ _ _ => m
  | .dot2 m _ _ _ => m
  | .averaging _ e => e.number

/-- The entry `measurements` of the dictionary (evaluator.py:81-87, 808-813). -/
def Entry.measurements : Entry → Except PyErr Nat
  | .averaging _ _ => .error .keyError
  | e => .ok e.number

/-- `plot_load_time` (history.py:602-607). -/
noncomputable def plotLoadTime (ax : Ax) : Entry → Drawing
  | .fitting _ x y fit guess => match ax with
    | .single => raise .typeError                                                    -- `ax[0]`
    | .list 0 => raise .indexError
    | .array 0 => raise .indexError
    | _ => plotFit load 0 x y fit guess
  | _ => raise .keyError

/-- `plot_inter_dot_tc` and `plot_lead_time` (history.py:610-637): the first axes. -/
noncomputable def plotFirst (f : Function) (ax : Ax) : Entry → Drawing
  | .fitting _ x y fit guess => match ax with
    | .list 0 => raise .indexError
    | .array 0 => raise .indexError
    | _ => plotFit f 0 x y fit guess
  | _ => raise .keyError

/-- The loop of `plot_transition` (history.py:641-646) for the axes `k`, `k + 1`, …, `k + n - 1`. -/
noncomputable def plotTransitions (x y : List (List Val)) (positions : List Val) : Nat → Nat → Drawing
  | _, 0 => ⟨[], none⟩
  | k, n + 1 => match x[k]?, y[k]?, positions[k]? with
    | some xs, some ys, some p => (plotMark k xs ys p).andThen (plotTransitions x y positions (k + 1) n)
    | _, _, _ => raise .indexError

/-- `plot_transition` (history.py:640-646). -/
noncomputable def plotTransition (ax : Ax) : Entry → Drawing
  | .transition _ x y positions => match ax with
    | .single => raise .typeError                                                    -- `enumerate(ax)`
    | .list n => plotTransitions x y positions 0 n
    | .array n => plotTransitions x y positions 0 n
  | _ => raise .keyError

/-- `plot_1dim_sensing_dot_scan` (history.py:649-655): an array of axes is no list, and has no `plot`. -/
noncomputable def plotDot1 (ax : Ax) : Entry → Drawing
  | .dot1 _ x y optimal => match ax with
    | .array _ => raise .attributeError
    | .list 0 => raise .indexError
    | _ => plotMark 0 x y optimal
  | _ => raise .keyError

/-- `plot_2dim_sensing_dot_scan` (history.py:658-662, util.py:277-288). -/
noncomputable def plotDot2 (ax : Ax) : Entry → Drawing
  | .dot2 _ x y v => match ax with
    | .single => raise .typeError                                                    -- `ax[0]`
    | .list 0 => raise .indexError
    | .array 0 => raise .indexError
    | _ => ⟨[(0, .image x y v.1 v.2)], none⟩
  | _ => raise .keyError

/-- `plot_function_matching[name](ax, entry)` (history.py:668-680), with `plot_average_evaluator` (lines 665-670). -/
noncomputable def plotEntry (name : String) (ax : Ax) : Entry → Drawing
  | .averaging inner e =>
    if name = "AveragingInterDotTCByLineScan" ∨ name = "AveragingLeadTunnelTimeByLeadScan" then plotEntry inner ax e else raise .keyError
  | e =>
    if name = "InterDotTCByLineScan" then plotFirst coupling ax e
    else if name = "LoadTime" then plotLoadTime ax e
    else if name = "LeadTransitionRFA" ∨ name = "LeadTransitionRFB" ∨ name = "LeadTransition" then plotTransition ax e
    else if name = "SensingDot1D" then plotDot1 ax e
    else if name = "SensingDot2D" then plotDot2 ax e
    else if name = "LeadTunnelTimeByLeadScan" then plotFirst leadTimes ax e
    else raise .keyError

/-- `subplots(nrows=n)` of a figure (gui.py:314): one axes is not put into an array; a `ValueError` for no rows. -/
def subplots : Nat → Except PyErr Ax
  | 0 => .error .valueError
  | 1 => .ok .single
  | n => .ok (.array n)

/-- The picture of a new window (gui.py:104-110, 359-385): `refresh` is called once, with a figure that has no axes. -/
noncomputable def window (name : String) (e : Entry) : Drawing :=
  let number : Except PyErr Nat :=
    if "Averaging".toList <+: name.toList then
      (match e with | .averaging _ i => .ok i.number | _ => .error .keyError)          -- lines 374-377
    else e.measurements
  match number with
  | .error e => raise e
  | .ok n => match subplots n with
    | .error e => raise e
    | .ok ax => plotEntry name ax e

/-- The part of a figure of `plot_evaluator_data` (history.py:430-450) that belongs to one evaluator: a slice of an array of axes. -/
noncomputable def figure (name : String) (e : Entry) : Drawing :=
  match e.measurements with
  | .error e => raise e
  | .ok n => plotEntry name (.array n) e

end Qtune.Gui.Picture
