import Mathlib.Algebra.Order.Floor.Ring
import Mathlib.Data.Real.Archimedean
import Verif.Matlab.VoltModel

/-!
# Model of the measurements of the double dot

`LegacyDQDRefactored.measure` (sm.py:193-224) and the MATLAB functions it calls.

Numbers are real numbers.  A scan is described by its loops and by the functions that `smrun`
calls afterwards; the settings of the data acquisition card, triggers and figures are left
out.  `smrun` (the program that drives the instruments) and `confSeqPython` (which makes scans
with the pulse generator) are not part of the repository: they are parameters.  MATLAB errors
are `other 2`, `NotImplementedError` is `other 1`.
-/

namespace Qtune.Matlab

/-- The value of an option of a `Measurement` (experiment.py:34-37): a number, a text, `None`
or a list. -/
inductive Opt where
  | num (x : ℝ)
  | text (s : String)
  | none
  | list (l : List Opt)

/-- `Measurement`, experiment.py:30-41. -/
structure Meas where
  name : String
  options : List (String × Opt)

/-- A loop of a scan: the channels that are swept with their first and last voltage, the number
of points and the time per point.  `scan.loops(i)`, makePythonChargeLineScan.m:58-70. -/
structure Loop where
  channels : List (String × ℝ × ℝ)
  npoints : ℝ
  seconds : ℝ

/-- A scan: its loops (the first one is the fastest), and the voltages that are set afterwards,
one after the other (`scan.cleanupfn`).  The channel `PulseLine` is not a gate and is left out
here.  makePythonChargeLineScan.m:38-73. -/
structure Scan where
  loops : List Loop
  cleanup : List Series

/-- `to_matlab` of a number or of something else, sm.py:124-161, as far as it matters here: a
number becomes an array of one number, a text or `None` raises.  A list becomes a list, with
which MATLAB cannot calculate; the error then comes from MATLAB. -/
def toNumber : Opt → Except PyErr Opt
  | .num x => .ok (.num x)
  | .text _ => .error (.other 1)
  | .none => .error (.other 1)
  | .list l => .ok (.list l)

/-- The loop over the names of the numbers, sm.py:198-200 and 205-207. -/
def convert (names : List String) : List (String × Opt) → Except PyErr (List (String × Opt))
  | [] => .ok []
  | (k, o) :: rest =>
    match (if k ∈ names then toNumber o else Except.ok o) with
    | .error e => .error e
    | .ok o' =>
      match convert names rest with
      | .error e => .error e
      | .ok rest' => .ok ((k, o') :: rest')

/-- The options that are converted, sm.py:198 and 205. -/
def numberNames : List String := ["N_points", "N_average", "center", "range", "ramptime"]

/-- `args.name` used as number in MATLAB: an error if there is no such field or if it is not a
number.  PythonChargeLineScan.m:5. -/
def numArg (args : List (String × Opt)) (name : String) : Except PyErr ℝ :=
  match args.lookup name with
  | some (.num x) => .ok x
  | _ => .error (.other 2)

/-- `args.name` used as text in MATLAB.  PythonChargeLineScan.m:4-5. -/
def textArg (args : List (String × Opt)) (name : String) : Except PyErr String :=
  match args.lookup name with
  | some (.text s) => .ok s
  | _ => .error (.other 2)

/-- `makePythonChargeLineScan.m:1-82`: for every value of `AWGorDecaDAC` the same scan. -/
def chargeLineScan (center range : ℝ) (gate : String) (npoints ramptime reps : ℝ) : Scan where
  loops := [⟨[(gate, center - range, center + range)], npoints, ramptime⟩, ⟨[], reps, 0⟩]
  cleanup := [[("RFA", some 0), ("RFB", some 0)]]

/-- `makePythonLineScan.m:1-73`.  `awg n reps` is `confSeqPython('new_line', n, reps, …)` of
line 67.  Line 71 uses variables that do not exist. -/
noncomputable def detuneLineScan (awg : ℝ → ℝ → Scan) (center range reps ramptime npoints : ℝ)
    (mode : String) : Except PyErr Scan :=
  if mode = "DecaDAC" then
    .ok { loops := [⟨[("RFB", -range + center, range + center),
                      ("RFA", -(-range) + center, -range + center)], npoints, ramptime⟩,
                    ⟨[], reps, 0⟩]
          cleanup := [[("RFB", some 0), ("RFA", some 0)]] }
  else if mode = "AWG" then .ok (awg 1280 reps)
  else .error (.other 2)

/-- `makePythonQPCScan2D.m:1-77`: `speed` is the speed at which the channel SDB2 is ramped
(line 16).  The argument `npoints` is overwritten in line 17. -/
noncomputable def qpcScan2D (speed range _npoints s1 s2 : ℝ) : Scan :=
  let n := (|range - -range| / speed) / 0.005
  let n' := if 0 < n - 256 * ⌊n / 256⌋ then ((⌊n / 256⌋ : ℝ) + 1) * 256 else n
  { loops := [⟨[("SDB2", s2 + -range, s2 + range)], n', 0.005⟩,
              ⟨[("SDB1", s1 + -range, s1 + range)], 20, 0.05⟩]
    cleanup := [[("SDB1", some s1)], [("SDB2", some s2)]] }

/-- What is not in the repository: `smrun`, which runs a scan, and the scans made with the
pulse generator.  The speed is a setting of the instrument.  `lead` is the scan of
make_lead_scan.m:24-43 before its cleanup functions are added, or an error (line 19-21). -/
structure Lab (δ : Type) where
  smrun : Volts → Scan → Volts × Except PyErr δ
  awg : ℝ → ℝ → Scan
  speed : ℝ
  lead : String → Except PyErr (List Loop)
  load : Scan

variable {δ : Type}

/-- `PythonChargeLineScan.m:4-9`: the voltage of the swept gate is restored afterwards, unless
`smrun` ends with an error. -/
def pythonChargeLineScan (lab : Lab δ) (v : Volts) (args : List (String × Opt)) :
    Volts × List Scan × Except PyErr δ :=
  match (do
    let gate ← textArg args "gate"
    let center ← numArg args "center"
    let range ← numArg args "range"
    let npoints ← numArg args "N_points"
    let ramptime ← numArg args "ramptime"
    let reps ← numArg args "N_average"
    let _ ← textArg args "AWGorDecaDAC"
    return (gate, chargeLineScan center range gate npoints ramptime reps)) with
  | .error e => (v, [], .error e)
  | .ok (gate, scan) =>
    match lab.smrun v scan with
    | (w, .error e) => (w, [scan], .error e)
    | (w, .ok d) => (smset w [(gate, v gate)], [scan], .ok d)

/-- `PythonLineScan.m:5-9`. -/
noncomputable def pythonLineScan (lab : Lab δ) (v : Volts) (args : List (String × Opt)) :
    Volts × List Scan × Except PyErr δ :=
  match (do
    let center ← numArg args "center"
    let range ← numArg args "range"
    let reps ← numArg args "N_average"
    let ramptime ← numArg args "ramptime"
    let npoints ← numArg args "N_points"
    let mode ← textArg args "AWGorDecaDAC"
    detuneLineScan lab.awg center range reps ramptime npoints mode) with
  | .error e => (v, [], .error e)
  | .ok scan =>
    match lab.smrun v scan with
    | (w, r) => (w, [scan], r)

/-- `PythonQPCScan2D.m:4-12` with makePythonQPCScan2D.m:8 (the center is read from the
instrument; a voltage that is not a number is an error). -/
noncomputable def pythonQPCScan2D (lab : Lab δ) (v : Volts) (range npoints : ℝ) :
    Volts × List Scan × Except PyErr δ :=
  match v "SDB1", v "SDB2" with
  | some s1, some s2 =>
    let scan := qpcScan2D lab.speed range npoints s1 s2
    match lab.smrun v scan with
    | (w, r) => (w, [scan], r)
  | _, _ => (v, [], .error (.other 2))

/-- `LeadScan.m:4-15` with make_lead_scan.m: only the gate is used. -/
def leadScan (lab : Lab δ) (v : Volts) (args : List (String × Opt)) :
    Volts × List Scan × Except PyErr δ :=
  match (do
    let _ ← textArg args "AWGorDecaDAC"
    let gate ← textArg args "gate"
    lab.lead gate) with
  | .error e => (v, [], .error e)
  | .ok loops =>
    let scan : Scan := ⟨loops, [[("RFB", some 0), ("RFA", some 0)]]⟩
    match lab.smrun v scan with
    | (w, r) => (w, [scan], r)

/-- `LoadScan.m:4-21`: none of the options is used. -/
def loadScan (lab : Lab δ) (v : Volts) : Volts × List Scan × Except PyErr δ :=
  match lab.smrun v lab.load with
  | (w, r) => (w, [lab.load], r)

/-- `LegacyDQDRefactored.measure`, sm.py:193-224: the voltages afterwards, the scans that were
given to `smrun`, and the data or the exception.  The name of the file is left out. -/
noncomputable def dqdMeasure (lab : Lab δ) (v : Volts) (m : Meas) :
    Volts × List Scan × Except PyErr δ :=
  if m.name = "line_scan" then
    match convert numberNames m.options with
    | .error e => (v, [], .error e)
    | .ok args => pythonChargeLineScan lab v args
  else if m.name = "detune_scan" then
    match convert numberNames m.options with
    | .error e => (v, [], .error e)
    | .ok args => pythonLineScan lab v args
  else if m.name = "lead_scan" then leadScan lab v m.options
  else if m.name = "load_scan" then loadScan lab v
  else if m.name = "2d_scan" then
    match m.options.lookup "range", m.options.lookup "n_points" with
    | some r, some n =>
      match toNumber r, toNumber n with
      | .ok (.num range), .ok (.num npoints) => pythonQPCScan2D lab v range npoints
      | .error e, _ => (v, [], .error e)
      | _, .error e => (v, [], .error e)
      | .ok _, .ok _ => (v, [], .error (.other 2))
    | _, _ => (v, [], .error .keyError)
  else (v, [], .error .valueError)

end Qtune.Matlab
