import Verif.Evaluator.Model
import Mathlib.Data.EReal.Basic

/-!
# Model of SensingDot2D.process_raw_data (evaluator.py 741-762) and of the evaluators QQDLine, QQDLead and QQDResp
(sm_tune_qqd.py 278-348, 454-502)

Limits are extended reals, as the defaults are infinite; simplification: no limit is NaN.
-/

namespace Qtune.Evaluator

open Classical

/-! ## SensingDot2D -/

/-- `row[cutoff:-cutoff]`; for `cutoff = 0` this is `row[0:0]`.  Used in evaluator.py:750-751. -/
noncomputable def cut (cutoff : Nat) (row : List ℝ) : List ℝ :=
  if cutoff = 0 then [] else (row.take (row.length - cutoff)).drop cutoff

/-- `SensingDot2D.process_raw_data` (evaluator.py:741-762), positions only.  `deriv` has one row for each point of
`x0`, the differences of the polynomial fitted to the line; the fit is an oracle.  The result is the pair of
positions (first gate, second gate). -/
noncomputable def steepest2D (rising : Bool) (x0 x1 : List ℝ) (deriv : List (List ℝ)) : Except PyErr (ℝ × ℝ) :=
  let cutoff := x1.length / 25
  let flat := deriv.flatMap (cut cutoff)
  let w := if cutoff = 0 then 0 else x1.length - 1 - 2 * cutoff
  match if rising then Signal.argmin flat else Signal.argmax flat with
  | none => .error .valueError
  | some k => match x0[k / w]?, x1[k % w + cutoff]? with
    | some a, some b => .ok (a, b)
    | _, _ => .error .indexError

/-! ## QQDLine, QQDLead -/

/-- `if v < lo or v > hi: v = np.nan` (sm_tune_qqd.py:306-307, 338-339, 480-481); comparisons with NaN are false. -/
noncomputable def clip (lo hi : EReal) : Val → Val
  | none => none
  | some x => if (x : EReal) < lo ∨ hi < (x : EReal) then none else some x

/-- `np.mean` for an array that may contain NaN; NaN for the empty array.  Used in sm_tune_qqd.py:294-308. -/
noncomputable def npMean (l : List Val) : Val :=
  if l = [] ∨ none ∈ l then none else some ((present l).sum / (present l).length)

/-- `np.var(l) / len(l)`; NaN if the array contains NaN or is empty.  Used in sm_tune_qqd.py:294-308. -/
noncomputable def npVarOfMean (l : List Val) : Val :=
  if l = [] ∨ none ∈ l then none
  else
    let p := present l
    let m := p.sum / p.length
    some ((p.map fun x => (x - m) ^ 2).sum / p.length / l.length)

/-- `QQDLine.process_raw_data` (sm_tune_qqd.py:294-308), from the widths of the analysed lines. -/
noncomputable def lineProcess (lo hi : EReal) (widths : List Val) : Val × Val :=
  (clip lo hi (npMean widths), npVarOfMean widths)

/-- `QQDLead.process_raw_data` (sm_tune_qqd.py:334-340), from the fitted time and the sum of residuals. -/
noncomputable def leadProcess (error ref : ℝ) (lo hi : EReal) (value residuals : Val) : Val × Val :=
  (clip lo hi value, Val.div (Val.mul (some error) residuals) (some ref))

/-! ## QQDResp -/

/-- The argument `min_position` or `max_position`.  sm_tune_qqd.py:455-458. -/
inductive LimArg
  | none
  | scalar (l : EReal)
  | series (s : List (String × EReal))

/-- `self._min_position`, `self._max_position` by position (sm_tune_qqd.py:462-473); the default is minus infinity for
both. -/
noncomputable def LimArg.values (params : List String) : LimArg → List EReal
  | .none => params.map fun _ => ⊥
  | .scalar l => params.map fun _ => l
  | .series s => s.map Prod.snd

/-- The check of the visibility (sm_tune_qqd.py:490-492). -/
noncomputable def visible (minHeight : EReal) (a : Val × Val) : Val :=
  match a.2 with
  | none => a.1
  | some v => if (v : EReal) < minHeight then none else a.1

/-- The check of position `i` (sm_tune_qqd.py:480-481): `iloc` raises `IndexError`; `or` does not evaluate its second
operand if the first is true. -/
noncomputable def checkPosition (los his : List EReal) (i : Nat) (v : Val) : Except PyErr Val :=
  match los[i]? with
  | none => .error .indexError
  | some lo =>
    if clip lo ⊤ v = none ∧ v ≠ none then .ok none
    else match his[i]? with
      | none => .error .indexError
      | some hi => .ok (clip ⊥ hi v)

/-- `QQDResp.evaluate` (sm_tune_qqd.py:475-494), values only.  `ana` holds position and visibility of the analysed
transitions; reading a missing one raises in MATLAB (`.other 2`).  `pd.Series(data, index)` raises `ValueError` if the
lengths differ. -/
noncomputable def respEvaluate (params : List String) (minHeight : EReal) (minArg maxArg : LimArg)
    (ana : List (Val × Val)) : Except PyErr Series :=
  match ana with
  | a0 :: a1 :: _ =>
    match checkPosition (minArg.values params) (maxArg.values params) 0 (visible minHeight a0) with
    | .error e => .error e
    | .ok p0 => match checkPosition (minArg.values params) (maxArg.values params) 1 (visible minHeight a1) with
      | .error e => .error e
      | .ok p1 => if params.length = 2 then .ok (params.zip [p0, p1]) else .error .valueError
  | _ => .error (.other 2)

end Qtune.Evaluator
