import Verif.Autotuner.Model
import Verif.Series

/-!
# The messages that `Autotuner.iterate` writes to the log

`Autotuner.Model` leaves the messages out.  Two of them look something up, which may raise: the change of the voltages
(autotuner.py:260-266) and the distance to the target (autotuner.py:281-285).  Here `iterate` is modelled with them.
-/

namespace Qtune.Autotuner

/-- What the messages read.  autotuner.py:260-266, 281-285. -/
structure Journal (W V : Type) where
  /-- `voltages.index` (autotuner.py:261) -/
  gates : V → List String
  /-- the index of `tuning_hierarchy[0].last_voltages`, `none` if these are `None` (autotuner.py:261) -/
  first : W → Option (List String)
  /-- `tuning_hierarchy[i].target` (autotuner.py:281-285) -/
  target : Nat → W → Target
  /-- `tuning_hierarchy[i].last_parameters_and_variances[0]` (autotuner.py:284) -/
  values : Nat → W → Series

variable {W X V P C : Type}

/-- The message with the change of the voltages (autotuner.py:260-266): `last_voltages[voltages_to_set.index]` raises `TypeError` if the last
voltages are `None` and `KeyError` if none of the gates is there (pandas 0.24; newer versions raise if one is missing).  The assignments to the
columns align the rows and do not raise. -/
def Journal.change (J : Journal W V) (w : W) (v : V) : Except PyErr Unit :=
  match J.first w with
  | none => .error .typeError
  | some l => if J.gates v ≠ [] ∧ (J.gates v).all (fun g => !l.contains g) then .error .keyError else .ok ()

/-- The message with the distance to the target (autotuner.py:281-285), which is left out if a set point is NaN. -/
def Journal.distance (J : Journal W V) (i : Nat) (w : W) : Except PyErr Unit :=
  if (J.target i w).all (fun r => r.desired.isSome) then
    match (J.values i w).select (J.target i w).names with
    | .error e => .error e
    | .ok _ => .ok ()
  else .ok ()

/-- `Autotuner.iterate` (autotuner.py:243-291) with the messages. -/
def iterateLogged (H : Hierarchy W X V P C) (J : Journal W V) (save : Except PyErr Unit) (s : State W X V) :
    State W X V × List (Event W V P) × Except PyErr Unit :=
  match H.ready s.tuners s.expt s.pending with                       -- line 250
  | .error e => (s, [], .error e)
  | .ok false => (s, [], .error errIncomplete)                       -- line 251
  | .ok true =>
    if isComplete H s then (s, [], .error errComplete)               -- lines 253-254
    else match s.pending with
    | some v =>                                                      -- line 256
      if H.hasNaN v then (s, [], .error errNaN)                      -- lines 257-258
      else match J.change s.tuners v with                            -- lines 260-266
        | .error e => (s, [], .error e)
        | .ok () => match H.setVolt v s.expt with                    -- line 268
          | (x, .error e) => ({ s with expt := x }, [.wrote v (.error e)], .error e)
          | (x, .ok ()) =>                                           -- lines 269-270
            finish save { s with expt := x, index := 0, pending := none } (.wrote v (.ok ()))
    | none =>
      if H.len ≤ s.index then (s, [], .error .indexError)            -- line 241
      else if s.status = false then                                  -- line 271
        match H.isTuned s.index (H.read s.expt) s.tuners s.expt with -- line 274
        | ((w, x), .error e) =>
          ({ s with tuners := w, expt := x },
            [.evaluated s.index (H.read s.expt) (.error e)], .error e)
        | ((w, x), .ok true) =>                                      -- lines 275-277
          finish save { s with tuners := w, expt := x, index := s.index + 1 }
            (.evaluated s.index (H.read s.expt) (.ok true))
        | ((w, x), .ok false) => match J.distance s.index w with     -- lines 279-285
          | .error e => ({ s with tuners := w, expt := x, status := true },
              [.evaluated s.index (H.read s.expt) (.ok false)], .error e)
          | .ok () => finish save { s with tuners := w, expt := x, status := true }
              (.evaluated s.index (H.read s.expt) (.ok false))
      else                                                           -- lines 286-289
        match H.nextVolt s.index (H.tunedParams s.tuners s.index) s.tuners with
        | (w, .error e) =>
          ({ s with tuners := w },
            [.suggested s.index (H.tunedParams s.tuners s.index) (.error e)], .error e)
        | (w, .ok v) =>
          finish save { s with tuners := w, pending := some v, status := false }
            (.suggested s.index (H.tunedParams s.tuners s.index) (.ok v))

/-- One call, with the messages.  Methods of autotuner.py:208-219, 243-300. -/
def stepLogged (H : Hierarchy W X V P C) (J : Journal W V) (s : State W X V) :
    Op X C → State W X V × List (Event W V P) × Except PyErr Unit
  | .iterate save => iterateLogged H J save s
  | .restart => restart H s
  | .changeTargets c => changeTargets H c s
  | .manual x => ({ s with expt := x }, [.manual], .ok ())

/-- A sequence of calls; returns the final state, the log of all events and what each call returned.  Methods of
autotuner.py:208-219, 243-300. -/
def runLogged (H : Hierarchy W X V P C) (J : Journal W V) : State W X V → List (Op X C) →
    State W X V × List (Event W V P) × List (Except PyErr Unit)
  | s, [] => (s, [], [])
  | s, op :: ops =>
    let r := stepLogged H J s op
    let q := runLogged H J r.1 ops
    (q.1, r.2.1 ++ q.2.1, r.2.2 :: q.2.2)

end Qtune.Autotuner
