import Verif.Base
import Mathlib.Data.Real.Basic

/-!
# Measurements as objects that evaluators share (experiment.py:30-55, basic_dqd.py:28-43, evaluator.py)

Evaluators refer to objects of the class `Measurement`, whose dict `options` two of them change: `SensingDot1D` writes the gate and
the center of its scan there, `SensingDot2D` the center.  What is done with the data is not modelled here, see C130 and C177.
-/

namespace Qtune.Evaluator.Share

/-- The value of an option.  experiment.py:37. -/
inductive Opt
  | none
  | num (x : ℝ)
  | text (s : String)
  | pair (a b : Option ℝ)

/-- A `Measurement`: its name and its options (a dict; `none`: no such key).  experiment.py:34-37. -/
structure Scan where
  name : String
  options : String → Option Opt

/-- `options[key] = value`.  evaluator.py:620-621, 700-702. -/
def Scan.set (s : Scan) (key : String) (value : Opt) : Scan :=
  { s with options := fun k => if k = key then some value else s.options k }

/-- The options of a call `Measurement(name, key=value, …)`.  experiment.py:34-37. -/
def Scan.make (name : String) (options : List (String × Opt)) : Scan := ⟨name, fun k => options.lookup k⟩

/-- The classes of evaluators; `leadTime` stands for both evaluators of lead tunnel times.  evaluator.py:132, 236, 345, 450, 505, 580, 663. -/
inductive Kind
  | leadTime
  | tunnelCoupling
  | loadTime
  | leadTransition (sweeping : List String)
  | dot1 (gate : String)
  | dot2 (gate₁ gate₂ : String) (range : ℝ)

/-- The measurements that a constructor makes if none are given: evaluator.py:142-143, 246-247, 356-358, 458-459, 524-529, 607-611, 690-695. -/
noncomputable def Kind.defaults : Kind → List Scan
  | .leadTime => [.make "lead_scan" [("gate", .text "B"), ("AWGorDecaDAC", .text "DecaDAC")]]
  | .tunnelCoupling => [.make "detune_scan" [("center", .num 0), ("range", .num (2 / 1000)), ("N_points", .num 100), ("ramptime", .num (1 / 50)),
      ("N_average", .num 5), ("AWGorDecaDAC", .text "AWG")]]
  | .loadTime => [.make "load_scan" []]
  | .leadTransition sweeping => sweeping.map fun g => .make "line_scan" [("center", .num 0), ("range", .num (4 / 1000)), ("gate", .text g),
      ("N_points", .num 320), ("ramptime", .num (1 / 1000)), ("N_average", .num 7), ("AWGorDecaDAC", .text "DecaDAC")]
  | .dot1 _ => [.make "line_scan" [("center", .none), ("range", .num (4 / 1000)), ("gate", .text "SDB2"), ("N_points", .num 1280),
      ("ramptime", .num (1 / 2000)), ("N_average", .num 1), ("AWGorDecaDAC", .text "DecaDAC")]]
  | .dot2 g₁ g₂ r => [.make "2d_scan" [("center", .pair none none), ("range", .num r), ("gate1", .text g₁), ("gate2", .text g₂),
      ("ramptime", .num (1 / 2000)), ("n_lines", .num 20), ("n_points", .num 104), ("N_average", .num 1), ("AWGorDecaDAC", .text "DecaDAC")]]

/-- An evaluator and the measurements it refers to (evaluator.py:33-46). -/
structure Ev where
  kind : Kind
  scans : List Nat

/-- The objects of a session: the first `next` measurements exist; the evaluators in the order of their creation. -/
structure Session where
  scan : Nat → Scan
  next : Nat
  evs : List Ev

/-- The class attributes of `BasicDQD`, which exist once the module is imported.  basic_dqd.py:28-36. -/
noncomputable def classScans : List Scan := [
  .make "line_scan" [("center", .num 0), ("range", .num (3 / 1000)), ("gate", .text "RFA"), ("N_points", .num 1280), ("ramptime", .num (1 / 2000)),
    ("N_average", .num 3), ("AWGorDecaDAC", .text "DecaDAC")],
  .make "detune_scan" [("center", .num 0), ("range", .num (2 / 1000)), ("N_points", .num 100), ("ramptime", .num (1 / 50)),
    ("N_average", .num 10), ("AWGorDecaDAC", .text "AWG")],
  .make "lead_scan" [("gate", .text "B"), ("AWGorDecaDAC", .text "DecaDAC")],
  .make "load_scan" []]

/-- A session after `import qtune.basic_dqd`.  basic_dqd.py:28-36. -/
noncomputable def Session.new : Session := ⟨fun i => classScans.getD i (.make "" []), 4, []⟩

/-- `experiment.measurements` for an experiment derived from `BasicDQD`: the class attributes (basic_dqd.py:41-43). -/
def measurementsOf (_experiment : Nat) : List Nat := [0, 1, 2, 3]

/-- A new measurement.  experiment.py:34-37. -/
def Session.add (s : Session) (m : Scan) : Session :=
  { s with scan := fun i => if i = s.next then m else s.scan i, next := s.next + 1 }

/-- New measurements, in order.  evaluator.py:524-529. -/
def Session.addAll (s : Session) : List Scan → Session
  | [] => s
  | m :: l => (s.add m).addAll l

/-- The constructor of an evaluator, with or without measurements (evaluator.py:142, 246, 356, 458, 524, 607, 690).  A reference to a
measurement that does not exist cannot be given: then nothing happens. -/
noncomputable def Session.create (s : Session) (kind : Kind) : Option (List Nat) → Session
  | some given => if ∀ i ∈ given, i < s.next then { s with evs := s.evs ++ [⟨kind, given⟩] } else s
  | none =>
    let new := kind.defaults
    { s.addAll new with evs := s.evs ++ [⟨kind, (List.range new.length).map (s.next + ·)⟩] }

/-- The ends of the axis `np.linspace(center - range, center + range, …)`.  evaluator.py:386-388, 563-565, 626-629. -/
def axis (o : String → Option Opt) : Except PyErr (ℝ × ℝ) :=
  match o "center", o "range" with
  | none, _ => .error .keyError
  | some _, none => .error .keyError
  | some (.num c), some (.num r) => .ok (c - r, c + r)
  | some _, some _ => .error .typeError

/-- The same for the two axes of a two-dimensional scan.  evaluator.py:705-711. -/
def axis2 (o : String → Option Opt) : Except PyErr Unit :=
  match o "center", o "range" with
  | none, _ => .error .keyError
  | some _, none => .error .keyError
  | some (.pair (some _) (some _)), some (.num _) => .ok ()
  | some _, some _ => .error .typeError

/-- The voltages that `read_gate_voltages` returns, and what `measure` answers to a scan.  experiment.py:66, 79. -/
structure Device where
  volts : String → Option ℝ
  measure : Scan → Except PyErr Unit

/-- A scan that was started: of which measurement, with which options, at which voltages, by which evaluator. -/
structure Done where
  ev : Ev
  ref : Nat
  scan : Scan
  volts : String → Option ℝ

/-- The measurements of an evaluator one after the other, until one of them raises.  evaluator.py:540-544.  Simplification: there are as many
shifting gates as measurements. -/
def measureAll (s : Session) (d : Device) (e : Ev) : List Nat → List Done × Except PyErr Unit
  | [] => ([], .ok ())
  | i :: l =>
    match d.measure (s.scan i) with
    | .error err => ([⟨e, i, s.scan i, d.volts⟩], .error err)
    | .ok () =>
      let r := measureAll s d e l
      (⟨e, i, s.scan i, d.volts⟩ :: r.1, r.2)

/-- The gate with the name that is stored under a key, and its voltage.  evaluator.py:701-702. -/
def gateVoltage (d : Device) (o : String → Option Opt) (key : String) : Except PyErr ℝ :=
  match o key with
  | some (.text g) =>
    match d.volts g with
    | some x => .ok x
    | none => .error .keyError
  | _ => .error .keyError

/-- `evaluate` of an evaluator up to the processing of the data: the session afterwards, the scans that were started, and whether the axes of the data
could be found.  evaluator.py:165-170, 268-273, 375-389, 470-475, 537-565, 615-629, 699-711. -/
noncomputable def Session.evaluate (s : Session) (d : Device) (e : Ev) : Session × List Done × Except PyErr Unit :=
  match e.scans with
  | [] => (s, [], .error .indexError)
  | i :: l =>
    match e.kind with
    | .leadTime | .loadTime =>
      let r := measureAll s d e [i]
      (s, r.1, r.2)
    | .tunnelCoupling =>
      let r := measureAll s d e [i]
      (s, r.1, match r.2 with
        | .error err => .error err
        | .ok () => match axis (s.scan i).options with
          | .error err => .error err
          | .ok _ => .ok ())
    | .leadTransition _ =>
      let r := measureAll s d e (i :: l)
      (s, r.1, match r.2 with
        | .error err => .error err
        | .ok () => match axis (s.scan i).options with
          | .error err => .error err
          | .ok _ => .ok ())
    | .dot1 g =>
      let m := (s.scan i).set "gate" (.text g)                                      -- line 620
      match d.volts g with
      | none => ({ s with scan := fun k => if k = i then m else s.scan k }, [], .error .keyError)
      | some x =>
        let m := m.set "center" (.num x)                                            -- line 621
        let s := { s with scan := fun k => if k = i then m else s.scan k }
        let r := measureAll s d e [i]
        (s, r.1, match r.2 with
          | .error err => .error err
          | .ok () => match axis (s.scan i).options with
            | .error err => .error err
            | .ok _ => .ok ())
    | .dot2 _ _ _ =>
      match gateVoltage d (s.scan i).options "gate1" with                           -- line 701
      | .error err => (s, [], .error err)
      | .ok x =>
        match gateVoltage d (s.scan i).options "gate2" with                         -- line 702
        | .error err => (s, [], .error err)
        | .ok y =>
          let m := (s.scan i).set "center" (.pair (some x) (some y))                -- line 700
          let s := { s with scan := fun k => if k = i then m else s.scan k }
          let r := measureAll s d e [i]
          (s, r.1, match r.2 with
            | .error err => .error err
            | .ok () => axis2 (s.scan i).options)

/-- What happens in a session: a measurement or an evaluator is made, or one of the evaluators evaluates. -/
inductive Act
  | measurement (m : Scan)
  | create (kind : Kind) (given : Option (List Nat))
  | evaluate (e : Nat) (d : Device)

/-- One step; an evaluator that does not exist does nothing.  experiment.py:34-37, evaluator.py:33-46, parameter_tuner.py:112-125. -/
noncomputable def Session.step (s : Session) : Act → Session × List Done
  | .measurement m => (s.add m, [])
  | .create kind given => (s.create kind given, [])
  | .evaluate j d =>
    match s.evs[j]? with
    | none => (s, [])
    | some e => ((s.evaluate d e).1, (s.evaluate d e).2.1)

/-- All of them.  parameter_tuner.py:112-125. -/
noncomputable def Session.run (s : Session) : List Act → Session × List Done
  | [] => (s, [])
  | a :: as =>
    let r := s.step a
    let q := r.1.run as
    (q.1, r.2 ++ q.2)

end Qtune.Evaluator.Share
