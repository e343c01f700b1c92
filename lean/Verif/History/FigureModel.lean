import Verif.Base
import Mathlib.Data.List.Basic

/-!
# Model of `History.plot_evaluator_data`

A figure is represented by the list of what is drawn into it: the name of the evaluator and its axes.
-/

namespace Qtune.History.Figure

/-- The loop that removes names without data (history.py:420-423).  It removes from the list it runs over; `done` are
the entries that the loop has passed, `rest` those that come.  `known` tells whether there is a
column of that name. -/
def prune (known : String → Bool) (done rest : List String) : List String :=
  match rest with
  | [] => done
  | a :: t =>
    if known a then prune known (done ++ [a]) t
    else prune known (((done ++ a :: t).erase a).take (done.length + 1)) (((done ++ a :: t).erase a).drop (done.length + 1))
termination_by rest.length
decreasing_by
  · simp
  · simp only [List.length_drop]
    have : a ∈ done ++ a :: t := by simp
    rw [List.length_erase_of_mem this]
    simp
    omega

/-- One drawing: the evaluator and the range of its axes in `eval_data_ax.ravel()` (history.py:443-448). -/
structure Drawing where
  evaluator : String
  first : Nat
  count : Nat
deriving DecidableEq

/-- A figure with its number of axes (history.py:439-441). -/
structure Fig where
  axes : Nat
  drawings : List Drawing
deriving DecidableEq

/-- The axes of the evaluators: consecutive slices (history.py:443-444). -/
def slices : Nat → List (String × Nat) → List Drawing
  | _, [] => []
  | n, (e, k) :: l => ⟨e, n, k⟩ :: slices (n + k) l

/-- The names of the evaluators that can be drawn (history.py:668-680). -/
def plottable : List String := ["InterDotTCByLineScan", "LoadTime", "LeadTransitionRFA", "LeadTransitionRFB", "SensingDot1D",
  "SensingDot2D", "LeadTransition", "AveragingInterDotTCByLineScan", "AveragingLeadTunnelTimeByLeadScan",
  "LeadTunnelTimeByLeadScan"]

/-- The data of a row: the number of measurements of an evaluator, `none` is NaN (history.py:431-438).  A name that is
not a column raises. -/
def relevant (known : String → Bool) (data : String → Option Nat) : List String → Except PyErr (List (String × Nat))
  | [] => .ok []
  | e :: l =>
    if known e then do
      let r ← relevant known data l
      match data e with
      | none => .ok r
      | some k => .ok ((e, k) :: r)
    else .error .keyError

/-- One row (history.py:429-451).  `plt.subplots` raises for zero columns.  Simplification: what the plot functions do
with their axes is left out. -/
def row (known : String → Bool) (data : String → Option Nat) (names : List String) : Except PyErr Fig := do
  let r ← relevant known data names
  let n := (r.map Prod.snd).sum
  if n = 0 then .error .valueError
  else if r.all fun x => decide (x.1 ∈ plottable) then
    .ok ⟨2 * (n / 2 + n % 2), slices 0 r⟩
  else .error .keyError

/-- The rows (history.py:428-452); `rows` is the number of rows of the data. -/
def figures (known : String → Bool) (rows : Nat) (data : Nat → String → Option Nat) (names : List String) :
    List Nat → Except PyErr (List Fig)
  | [] => .ok []
  | i :: l =>
    if i < rows then do
      let f ← row known (data i) names
      let r ← figures known rows data names l
      .ok (f :: r)
    else .error (.runtimeError "These indices are not in the aquired data!")

/-- `plot_evaluator_data` (history.py:412-453): the list of the caller afterwards and the figures. -/
def plotEvaluatorData (known : String → Bool) (rows : Nat) (data : Nat → String → Option Nat) (start : Nat) (stop : Option Nat)
    (names : List String) : List String × Except PyErr (List Fig) :=
  (prune known [] names,
    figures known rows data (prune known [] names) (List.range' start (stop.getD (start + 1) - start)))

end Qtune.History.Figure
