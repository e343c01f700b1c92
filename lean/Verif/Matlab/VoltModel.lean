import Mathlib.Data.Real.Basic
import Mathlib.Data.Rat.Cast.Order
import Mathlib.Logic.Function.Basic
import Mathlib.Algebra.Order.Group.Abs
import Verif.Series

/-!
# Model of the functions that set gate voltages through MATLAB

`sm.py` (`LegacyDQDRefactored`), `sm_tune_qqd.py` (`SMTuneQQD`) and the MATLAB functions of
`qtune/MATLAB/+qtune` they call.

The instrument is a map from channel names to voltages; `smset` and `smget` are ideal
(a voltage that is set is read back unchanged, other channels keep their voltage).  NaN is
`none`; a comparison with NaN is false, as in MATLAB.  A MATLAB `error` arrives in Python as
`MatlabExecutionError`, here `other 2`.  Displaying and the order of the labels is left out.
-/

namespace Qtune.Matlab

/-- The voltages of all channels.  `smdata` in set_gates_v_pretuned.m:16-60. -/
abbrev Volts := String → Val

/-- `a > b` of MATLAB and Python: false if one of them is NaN.  Used in set_qqd_gate_voltages.m:7-51. -/
def gtv (a b : Val) : Prop := ∃ x y, a = some x ∧ b = some y ∧ y < x

/-- `smset(names, values)`.  Called in set_qqd_gate_voltages.m:7-51. -/
def smset (v : Volts) (l : Series) : Volts :=
  l.foldl (fun v p => Function.update v p.1 p.2) v

/-- `smget(names)`.  Called in set_qqd_gate_voltages.m:7-51. -/
def smget (v : Volts) (names : List String) : Series := names.map fun g => (g, v g)

/-- `current[new.index] = new[new.index]` (sm.py:189, sm_tune_qqd.py:93): `KeyError` for a
label that the Series does not have.  Simplification: the labels of `new` are different from
each other (for a Series with repeated labels the first entry is taken). -/
def overwrite (cur new : Series) : Except PyErr Series :=
  if ∀ l ∈ new.index, l ∈ cur.index then
    .ok (cur.map fun p => (p.1, (new.lookup p.1).getD p.2))
  else .error .keyError

/-! ## The quadruple dot -/

/-- `set_qqd_gate_voltages.m:7-51`.  `pre` are the fields of `pretuned_qqd_gate_voltages`;
line 11 fails for a gate that is not among them.  The tests are made for all gates together
before anything is set. -/
noncomputable def setQqd (pre : List String) (v : Volts) (args : Series) :
    Volts × Except PyErr Series :=
  open Classical in
  if ¬ ∀ g ∈ args.index, g ∈ pre then (v, .error (.other 2))
  else if ∃ p ∈ args, gtv p.2 (some 0) then (v, .error (.other 2))
  else if ∃ p ∈ args, gtv (some (-1.3)) p.2 then (v, .error (.other 2))
  else if ∃ p ∈ args, gtv (Val.abs (Val.sub (v p.1) p.2)) (some 10e-3) then
    (v, .error (.other 2))
  else
    let v' := smset v args
    (v', .ok (smget v' args.index))

/-- `set_qqd_gate_voltages_abs_limit.m:6-33`: line 24 compares the step instead of the new
voltage with the lower limit. -/
noncomputable def setQqdAbsLimit (pre : List String) (v : Volts) (args : Series) :
    Volts × Except PyErr Series :=
  open Classical in
  if ¬ ∀ g ∈ args.index, g ∈ pre then (v, .error (.other 2))
  else if ∃ p ∈ args, gtv p.2 (some (-0.4)) then (v, .error (.other 2))
  else if ∃ p ∈ args, gtv (some (-1.3)) (Val.sub (v p.1) p.2) then (v, .error (.other 2))
  else
    let v' := smset v args
    (v', .ok (smget v' args.index))

/-- `SMTuneQQD.set_gate_voltages`, sm_tune_qqd.py:90-99, with `read_qqd_gate_voltages.m`
(`gates` are the names of line 8 of that file). -/
noncomputable def qqdSetGateVoltages (pre gates : List String) (v : Volts) (new : Series) :
    Volts × Except PyErr Series :=
  match overwrite (smget v gates) new with
  | .error e => (v, .error e)
  | .ok all =>
    match setQqd pre v all with
    | (v', .error e) => (v', .error e)
    | (v', .ok _) => (v', .ok (smget v' gates))

/-! ## The double dot -/

/-- The eight gates of `tunedata.gatechan`, in the order in which `read_gate_voltages.m:10-17`
and `set_gates_v_pretuned.m:18` name them. -/
def dotGates : List String := ["SB", "BB", "T", "N", "SA", "BA", "RFA", "RFB"]

/-- All gates of `read_gate_voltages.m:10-19`. -/
def dqdGates : List String := dotGates ++ ["SDB2", "SDB1"]

/-- `set_gates_v_pretuned.m:16-60`: `pre` are the voltages stored by
`setup_matlab_backend.m` (`pretuned_point` for the eight dot gates, `sensor_pretuned` for
SDB2, `sensor_gate1_pretuned` for SDB1).  Lines 31 and 37 have no `abs`. -/
noncomputable def setPretuned (pre : Volts) (v : Volts) (args : Series) :
    Volts × Except PyErr Series :=
  open Classical in
  if ∃ g ∈ dqdGates, args.lookup g = none then (v, .error (.other 2))
  else
    let goBack := (∃ g ∈ dotGates, gtv (Val.abs (Val.sub (pre g) (args.val g))) (some 30e-3)) ∨
      gtv (Val.sub (args.val "SDB2") (pre "SDB2")) (some 30e-3) ∨
      gtv (Val.sub (args.val "SDB1") (pre "SDB1")) (some 30e-3)
    if goBack then (smset v (smget pre dqdGates), .error (.other 2))
    else
      let v' := smset v (dqdGates.map fun g => (g, args.val g))
      (v', .ok (smget v' dqdGates))

/-- `LegacyDQDRefactored.set_gate_voltages`, sm.py:187-191. -/
noncomputable def dqdSetGateVoltages (pre : Volts) (v : Volts) (new : Series) :
    Volts × Except PyErr Series :=
  match overwrite (smget v dqdGates) new with
  | .error e => (v, .error e)
  | .ok all => setPretuned pre v all

/-! ## The sensing dot of the double dot -/

/-- `change_sensing_dot_gates.m:8-27` (`sminc` adds to the present voltage). -/
noncomputable def changeSensingDot (pre : Volts) (v : Volts) (d1 d2 : Val) :
    Volts × Except PyErr Unit :=
  open Classical in
  if gtv (Val.abs d1) (some 21e-3) then (v, .error (.other 2))
  else if gtv (Val.abs d2) (some 21e-3) then (v, .error (.other 2))
  else if gtv (Val.abs (Val.sub (Val.add (v "SDB1") d1) (pre "SDB1"))) (some 70e-3) then
    (v, .error (.other 2))
  else if gtv (Val.abs (Val.sub (Val.add (v "SDB2") d2) (pre "SDB2"))) (some 70e-3) then
    (v, .error (.other 2))
  else
    let v1 := smset v [("SDB1", Val.add (v "SDB1") d1)]
    (smset v1 [("SDB2", Val.add (v1 "SDB2") d2)], .ok ())

/-- The position that `retune_qpc.m:20-25` computes for the chosen point `idx` (1-based,
after 49 points were cut off at the front): the axis is always 5 mV wide to both sides,
whatever `tuning_range` was scanned. -/
noncomputable def qpcPosition (current : ℝ) (idx : ℕ) : ℝ :=
  current + (-5e-3 + ((idx : ℝ) + 48) * (10e-3 / 1279))

/-- `retune_qpc.m:11-52`, after the scan: `idx` is the position of the minimum of the
smoothed derivative.  The reference is `sensor_pretuned`, the voltage of SDB2, whatever gate
is tuned. -/
noncomputable def retuneQpc (pre : Volts) (v : Volts) (gate : String) (current : ℝ) (idx : ℕ) :
    Volts × Except PyErr ℝ :=
  open Classical in
  if gtv (Val.abs (Val.sub (some (qpcPosition current idx)) (pre "SDB2"))) (some 100e-3) then
    (smset (smset v (smget pre dotGates)) [(gate, pre "SDB2")], .error (.other 2))
  else (smset v [(gate, some (qpcPosition current idx))], .ok (qpcPosition current idx))

end Qtune.Matlab
