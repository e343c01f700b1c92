import Verif.Matlab.ScanModel
import Verif.Evaluator.FitModel

/-!
# What a measurement should do
-/

namespace Qtune.Matlab

variable {δ : Type}

/-- The channels that a scan sweeps. -/
def Scan.swept (s : Scan) : List String := (s.loops.map fun l => l.channels.map Prod.fst).flatten

/-- What we assume of the program that runs a scan.  It moves no channel but those that the
scan sweeps.  When all data is there it calls the cleanup functions one after the other; if it
fails it may have called some of them or none. -/
def Runs (smrun : Volts → Scan → Volts × Except PyErr δ) : Prop :=
  ∀ v s, ∃ u : Volts, (∀ c, c ∉ s.swept → u c = v c) ∧
    ∃ k, (smrun v s).1 = (s.cleanup.take k).foldl smset u ∧
      ∀ d, (smrun v s).2 = .ok d → s.cleanup.length ≤ k

/-- The gates RFA and RFB, with which the detuning of the two dots is swept. -/
def IsRF (g : String) : Prop := g = "RFA" ∨ g = "RFB"

/-- The scans made with the pulse generator move no gate, the lead scan only RFA and RFB. -/
structure Lab.Proper (lab : Lab δ) : Prop where
  runs : Runs lab.smrun
  awg : ∀ n r, (lab.awg n r).swept = [] ∧ (lab.awg n r).cleanup = []
  load : lab.load.swept = [] ∧ lab.load.cleanup = []
  lead : ∀ g loops, lab.lead g = .ok loops → ∀ c ∈ (⟨loops, []⟩ : Scan).swept, IsRF c

/-- The voltages after a sequence of measurements, if none of them fails. -/
inductive Measured (lab : Lab δ) : Volts → List Meas → Volts → Prop
  | nil (v : Volts) : Measured lab v [] v
  | cons {v w x : Volts} {m : Meas} {ms : List Meas} {scans : List Scan} {d : δ}
      (h : dqdMeasure lab v m = (w, scans, .ok d)) (hs : Measured lab w ms x) :
      Measured lab v (m :: ms) x

/-- The voltage of channel `c` at point `i` (from zero) of a loop. -/
noncomputable def Loop.voltage (l : Loop) (c : String) (i : ℕ) : Option ℝ :=
  (l.channels.lookup c).map fun p => p.1 + i * ((p.2 - p.1) / (l.npoints - 1))

/-- The scan sweeps `gate` from `lo` to `hi` in `n` points of `dt` seconds, `reps` times, and
nothing else. -/
def Scan.IsSweep (s : Scan) (gate : String) (lo hi n dt reps : ℝ) : Prop :=
  s.loops.length = 2 ∧
  (∃ l, s.loops[0]? = some l ∧ l.channels = [(gate, lo, hi)] ∧ l.npoints = n ∧ l.seconds = dt) ∧
  ∃ l, s.loops[1]? = some l ∧ l.channels = [] ∧ l.npoints = reps

/-- The options of a measurement are numbers (or texts) with these values. -/
def HasNum (m : Meas) (name : String) (x : ℝ) : Prop := m.options.lookup name = some (.num x)

/-- The same for texts. -/
def HasText (m : Meas) (name : String) (s : String) : Prop :=
  m.options.lookup name = some (.text s)

/-- All options that are to be numbers are numbers. -/
def NumbersOnly (m : Meas) : Prop :=
  ∀ name ∈ ["N_points", "N_average", "center", "range", "ramptime"], ∀ p ∈ m.options,
    p.1 = name → ∃ x, p.2 = .num x

end Qtune.Matlab
