import Verif.Tuner.Model

/-!
# The Series that a tuner keeps

A tuner keeps the Series that it gets from the experiment, without making copies: as last voltages, in the list of
evaluatable voltages and in the list of tuned voltages (parameter_tuner.py:228, 245, 250).  This file models a tuner and
an experiment with references to Series, which are identified by numbers.
-/

namespace Qtune.Tuner.Record

open Qtune.Tuner

/-- What an experiment returns from `read_gate_voltages`: a new Series (basic_dqd.py:90-91, sm.py and sm_tune_qqd.py make a
new one from the answer of MATLAB), or the Series in which it keeps its voltages, which
experiment.py:71-72 allows. -/
inductive Reading
  | copy
  | own

/-- The contents of all Series, the first number that is not used, and the Series of the experiment.  basic_dqd.py:71. -/
structure World (ι : Type) where
  heap : Nat → Volt ι
  next : Nat
  own : Nat

/-- `experiment.read_gate_voltages()`.  basic_dqd.py:90-91. -/
def read {ι : Type} (k : Reading) (w : World ι) : World ι × Nat :=
  match k with
  | .copy => ({ w with heap := Function.update w.heap w.next (w.heap w.own), next := w.next + 1 }, w.next)
  | .own => (w, w.own)

/-- `experiment.set_gate_voltages(v)` with all gates: assigns to the entries of the Series of the experiment.
basic_dqd.py:93-96. -/
def set {ι : Type} (v : Volt ι) (w : World ι) : World ι := { w with heap := Function.update w.heap w.own v }

/-- A `SubsetTuner` with references; the voltages of `rest` are not used.  parameter_tuner.py:53-60. -/
structure RefTuner (S ι : Type) where
  rest : SubsetTuner S ι
  last : Nat
  evaluatable : List Nat
  tuned : List Nat

variable {S ι : Type}

/-- The tuner with the present contents of its Series.  parameter_tuner.py:103-104, 140-142. -/
def RefTuner.deref (h : Nat → Volt ι) (t : RefTuner S ι) : SubsetTuner S ι :=
  { t.rest with lastVoltage := h t.last, evaluatable := t.evaluatable.map h, tunedVoltages := t.tuned.map h }

open Classical in
/-- `SubsetTuner.is_tuned` with a reference (parameter_tuner.py:222-253). -/
noncomputable def isTunedRef (I : SolverI S ι) (outs : List Outcome) (h : Nat → Volt ι) (r : Nat)
    (t : RefTuner S ι) : RefTuner S ι × Except PyErr Bool :=
  let t := { t with last := r }                                                 -- line 228
  if t.rest.queued ≠ 0 then                                                     -- lines 230-232
    ({ t with rest.solver := I.setPosition (h r) t.rest.solver }, .ok false)
  else
    let T := I.target t.rest.solver
    match evaluate T outs with                                                  -- line 234
    | .error e => (t, .error e)
    | .ok (p, vars) =>
      let p := rescaleValues T p                                                -- line 236
      let vars := rescaleVariances T vars
      match p.select t.rest.lastValues.index with                               -- line 237
      | .error e => (t, .error e)
      | .ok lv =>
        match vars.select lv.index with                                         -- line 238
        | .error e => ({ t with rest.lastValues := lv }, .error e)
        | .ok lvar =>
          let t := { t with rest.lastValues := lv, rest.lastVariances := lvar }
          if lv.any (fun e => e.2.isNone) then                                  -- lines 241-243
            ({ t with rest.lastFailed := true }, .ok false)
          else
            let t := { t with rest.lastFailed := false, evaluatable := t.evaluatable ++ [r] }
            match I.update (h r) p vars t.rest.solver with                      -- line 247
            | (s, .error e) => ({ t with rest.solver := s }, .error e)
            | (s, .ok ()) =>
              let t := { t with rest.solver := s }
              if ∀ q ∈ T, WithinTolerance q (p.val q.name) then                 -- lines 248-251
                ({ t with tuned := t.tuned ++ [r] }, .ok true)
              else (t, .ok false)

/-- `SubsetTuner.get_next_voltages` with references: a new Series is computed from the present contents
(parameter_tuner.py:255-277). -/
noncomputable def nextRef [Fintype ι] (I : SolverI S ι) (params : List String) (h : Nat → Volt ι) (t : RefTuner S ι) :
    RefTuner S ι × Except PyErr (Volt ι) :=
  ({ t with rest := (nextVoltages I params (t.deref h)).1 }, (nextVoltages I params (t.deref h)).2)

/-- What happens to a tuner and its experiment.  autotuner.py:243-300. -/
inductive Op (S ι : Type)
  /-- the voltages are read and `is_tuned` is called; `outs` are the outcomes of the evaluators -/
  | evaluate (outs : List Outcome)
  /-- `get_next_voltages` -/
  | suggest (params : List String)
  /-- voltages are set, by the autotuner or by somebody else -/
  | set (v : Volt ι)
  /-- `restart`: the setter of `last_voltages` looks up the values of the new voltages among the names of the gates and
  assigns nothing, see C09; `f` is the restart of the solver (parameter_tuner.py:107-112, 180-182) -/
  | restart (f : S → S)

/-- Results of calls.  autotuner.py:243-300. -/
inductive Res (ι : Type)
  | answer (r : Except PyErr Bool)
  | voltages (r : Except PyErr (Volt ι))
  | nothing

/-- One operation with references.  autotuner.py:243-300. -/
noncomputable def step [Fintype ι] (I : SolverI S ι) (k : Reading) (w : World ι) (t : RefTuner S ι) :
    Op S ι → World ι × RefTuner S ι × Res ι
  | .evaluate outs =>
    let u := read k w
    let r := isTunedRef I outs u.1.heap u.2 t
    (u.1, r.1, .answer r.2)
  | .suggest params =>
    let r := nextRef I params w.heap t
    (w, r.1, .voltages r.2)
  | .set v => (set v w, t, .nothing)
  | .restart f => (w, { t with rest.solver := f t.rest.solver }, .nothing)

/-- Several operations.  autotuner.py:243-300. -/
noncomputable def run [Fintype ι] (I : SolverI S ι) (k : Reading) (w : World ι) (t : RefTuner S ι) :
    List (Op S ι) → World ι × RefTuner S ι × List (Res ι)
  | [] => (w, t, [])
  | op :: ops =>
    let s := step I k w t op
    let r := run I k s.1 s.2.1 ops
    (r.1, r.2.1, s.2.2 :: r.2.2)

end Qtune.Tuner.Record
