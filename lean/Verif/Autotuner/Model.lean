import Verif.Base

/-!
# Model of `qtune.autotuner.Autotuner`

The autotuner is modelled as a state machine on top of an abstract *hierarchy*: the
tuners with everything they own (solvers, gradient estimators – possibly shared between
tuners –, evaluators) are one opaque value of type `W`; the experiment is an opaque value
of type `X`.  `W` is what is written to and reloaded from the HDF5 file, `X` is hardware
and survives a crash of the process.  `V` are voltage vectors (pandas Series), `P` sets
of parameter names and `C` arguments of `change_targets`.

Simplification: log lines (autotuner.py:260-266, 272-273, 276-285, 289) are not modelled.
-/

namespace Qtune.Autotuner

/-- What the autotuner calls.  Each method returns the new state of the objects it may
mutate together with the returned value or the raised exception, so that an exception can
leave partial effects behind.  Called in autotuner.py:141-300. -/
structure Hierarchy (W X V P C : Type) where
  /-- `len(self._tuning_hierarchy)` -/
  len : Nat
  /-- `Autotuner.ready_to_tune` (autotuner.py:161-206; its own model is in
  `Verif/Target`), may raise `AssertionError` -/
  ready : W → X → Option V → Except PyErr Bool
  /-- `Experiment.read_gate_voltages` (experiment.py:71) -/
  read : X → V
  /-- `voltages.isna().any()` (autotuner.py:257) -/
  hasNaN : V → Bool
  /-- `Experiment.set_gate_voltages` (experiment.py:74) -/
  setVolt : V → X → X × Except PyErr Unit
  /-- `tuning_hierarchy[i].is_tuned(voltages)` (parameter_tuner.py:166) -/
  isTuned : Nat → V → W → X → (W × X) × Except PyErr Bool
  /-- `tuning_hierarchy[i].get_next_voltages(tuned_parameters)` (parameter_tuner.py:175) -/
  nextVolt : Nat → P → W → W × Except PyErr V
  /-- `Autotuner.tuned_parameters` for tuner index `i` (autotuner.py:141-149) -/
  tunedParams : W → Nat → P
  /-- the loop `for par_tuner in tuning_hierarchy: par_tuner.restart(voltages)`
  (autotuner.py:299-300) -/
  restartTuners : V → W → W × Except PyErr Unit
  /-- `len(target_changes)` (autotuner.py:215) -/
  nChanges : C → Nat
  /-- the loop that assigns the changed targets (autotuner.py:216-217) -/
  applyTargets : C → W → W × Except PyErr Unit

/-- State of an `Autotuner` object (autotuner.py:66-84) together with the experiment it
holds: `index` is `_current_tuner_index`, `status` is `_current_tuner_status`, `pending`
is `_voltages_to_set`. -/
structure State (W X V : Type) where
  tuners : W
  expt : X
  index : Nat
  status : Bool
  pending : Option V

/-- The part of the state that `Autotuner.to_hdf5` (autotuner.py:302-311) writes: all but
the experiment, which is a reserved object. -/
structure Snapshot (W V : Type) where
  tuners : W
  index : Nat
  status : Bool
  pending : Option V

/-- autotuner.py:302-311 (`to_hdf5`), the storage path is treated in `Verif/Reload`. -/
def State.snapshot {W X V : Type} (s : State W X V) : Snapshot W V :=
  ⟨s.tuners, s.index, s.status, s.pending⟩

/-- `load_auto_tuner` (autotuner.py:317-327): the constructor called with the saved
arguments and the given experiment. -/
def Snapshot.load {W X V : Type} (p : Snapshot W V) (x : X) : State W X V :=
  ⟨p.tuners, x, p.index, p.status, p.pending⟩

/-- Observable actions, in the order in which they happen.  Calls in autotuner.py:234-236, 243-300. -/
inductive Event (W V P : Type)
  /-- `is_tuned` of tuner `i` was called with the voltages `v` -/
  | evaluated (i : Nat) (v : V) (r : Except PyErr Bool)
  /-- `get_next_voltages` of tuner `i` was called -/
  | suggested (i : Nat) (p : P) (r : Except PyErr V)
  /-- `set_gate_voltages(v)` of the experiment was called -/
  | wrote (v : V) (r : Except PyErr Unit)
  /-- the state was handed to the HDF5 writer -/
  | saved (s : Snapshot W V)
  /-- `restart()` was called by the user -/
  | restarted
  /-- `change_targets()` was called by the user; `ok = false` if it raised -/
  | targetsChanged (ok : Bool)
  /-- the user changed the experiment behind the autotuner's back -/
  | manual

variable {W X V P C : Type}

/-- `Autotuner.__init__` with default index, status and pending voltages
(autotuner.py:37-39, 71-73). -/
def fresh (w : W) (x : X) : State W X V := ⟨w, x, 0, false, none⟩

/-- `Autotuner.is_tuning_complete` (autotuner.py:155-159). -/
def isComplete (H : Hierarchy W X V P C) (s : State W X V) : Bool :=
  s.index == H.len

/-- Message of the exception raised at autotuner.py:251. -/
def errIncomplete : PyErr := .runtimeError "The setup of the Autotuner class is incomplete!"
/-- Message of the exception raised at autotuner.py:254. -/
def errComplete : PyErr := .runtimeError "The tuning is already complete!"
/-- Message of the exception raised at autotuner.py:258. -/
def errNaN : PyErr := .runtimeError "A voltage is required to be set to NAN"

/-- End of `iterate`: `save_current_status` (autotuner.py:227-238, 291).  `save` is the
outcome of handing the state to the writer (`AsynchronousHDF5Writer.write` raises if its
worker is dead).  Without storage path nothing is written; that case is covered by the
same model because a `saved` event has no effect on the state. -/
def finish (save : Except PyErr Unit) (s : State W X V) (e : Event W V P) :
    State W X V × List (Event W V P) × Except PyErr Unit :=
  match save with
  | .ok () => (s, [e, .saved s.snapshot], .ok ())
  | .error err => (s, [e], .error err)

/-- `Autotuner.iterate` (autotuner.py:243-291). -/
def iterate (H : Hierarchy W X V P C) (save : Except PyErr Unit) (s : State W X V) :
    State W X V × List (Event W V P) × Except PyErr Unit :=
  match H.ready s.tuners s.expt s.pending with                       -- line 250
  | .error e => (s, [], .error e)
  | .ok false => (s, [], .error errIncomplete)                       -- line 251
  | .ok true =>
    if isComplete H s then (s, [], .error errComplete)               -- lines 253-254
    else match s.pending with
    | some v =>                                                      -- line 256
      if H.hasNaN v then (s, [], .error errNaN)                      -- lines 257-258
      else match H.setVolt v s.expt with                             -- line 268
        | (x, .error e) => ({ s with expt := x }, [.wrote v (.error e)], .error e)
        | (x, .ok ()) =>                                             -- lines 269-270
          finish save { s with expt := x, index := 0, pending := none } (.wrote v (.ok ()))
    | none =>
      if H.len ≤ s.index then (s, [], .error .indexError)            -- line 241
      else if s.status = false then                                  -- line 271
        match H.isTuned s.index (H.read s.expt) s.tuners s.expt with -- line 274
        | ((w, x), .error e) =>
          ({ s with tuners := w, expt := x },
            [.evaluated s.index (H.read s.expt) (.error e)], .error e)
        | ((w, x), .ok true) =>                                      -- line 275
          finish save { s with tuners := w, expt := x, index := s.index + 1 }
            (.evaluated s.index (H.read s.expt) (.ok true))
        | ((w, x), .ok false) =>                                     -- line 279
          finish save { s with tuners := w, expt := x, status := true }
            (.evaluated s.index (H.read s.expt) (.ok false))
      else                                                           -- lines 286-288
        match H.nextVolt s.index (H.tunedParams s.tuners s.index) s.tuners with
        | (w, .error e) =>
          ({ s with tuners := w },
            [.suggested s.index (H.tunedParams s.tuners s.index) (.error e)], .error e)
        | (w, .ok v) =>
          finish save { s with tuners := w, pending := some v, status := false }
            (.suggested s.index (H.tunedParams s.tuners s.index) (.ok v))

/-- `Autotuner.restart` (autotuner.py:293-300). The status flag is not touched. -/
def restart (H : Hierarchy W X V P C) (s : State W X V) :
    State W X V × List (Event W V P) × Except PyErr Unit :=
  match H.restartTuners (H.read s.expt) s.tuners with
  | (w, r) => ({ s with tuners := w, index := 0, pending := none }, [.restarted], r)

/-- `Autotuner.change_targets` (autotuner.py:208-219).  If assigning a target raises, the
index and the pending voltages are not reset.  The status flag is not touched. -/
def changeTargets (H : Hierarchy W X V P C) (c : C) (s : State W X V) :
    State W X V × List (Event W V P) × Except PyErr Unit :=
  if H.len < H.nChanges c then (s, [.targetsChanged false], .error .assertionError) -- line 215
  else match H.applyTargets c s.tuners with
    | (w, .error e) => ({ s with tuners := w }, [.targetsChanged false], .error e)
    | (w, .ok ()) =>
      ({ s with tuners := w, index := 0, pending := none }, [.targetsChanged true], .ok ())

/-- Calls a user can make, and manual changes of the experiment.
Methods of autotuner.py:208-219, 243-300, 317-327. -/
inductive Op (X C : Type)
  | iterate (save : Except PyErr Unit)
  | restart
  | changeTargets (c : C)
  | manual (x : X)

/-- One call. Exceptions are reported in the third component; the user may go on calling
afterwards.  Methods of autotuner.py:208-219, 243-300, 317-327. -/
def step (H : Hierarchy W X V P C) (s : State W X V) :
    Op X C → State W X V × List (Event W V P) × Except PyErr Unit
  | .iterate save => iterate H save s
  | .restart => restart H s
  | .changeTargets c => changeTargets H c s
  | .manual x => ({ s with expt := x }, [.manual], .ok ())

/-- A sequence of calls; returns the final state and the log of all events.
Methods of autotuner.py:208-219, 243-300, 317-327. -/
def run (H : Hierarchy W X V P C) : State W X V → List (Op X C) →
    State W X V × List (Event W V P)
  | s, [] => (s, [])
  | s, op :: ops =>
    let r := step H s op
    let q := run H r.1 ops
    (q.1, r.2.1 ++ q.2)

end Qtune.Autotuner
