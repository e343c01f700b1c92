import Verif.Base
import Mathlib.Data.List.Basic

/-!
# Model of the bookkeeping of MATLAB engines (sm.py)

A MATLAB session has a process id, possibly a name under which it is shared, and it can end.  `matlab.engine` does
not connect twice to one session, so that a session has at most one engine object at a time; the engine object is
represented by the number of its session.
-/

namespace Qtune.Matlab

/-- A MATLAB session (sm.py:64-87: `getpid`, `engineName`). -/
structure MSession where
  pid : Nat
  name : Option String
  alive : Bool

/-- The keys of `connected_engines`: process ids and names (sm.py:67, 86). -/
inductive EngineKey
  | pid (n : Nat)
  | name (s : String)
deriving DecidableEq

/-- All sessions on the machine, the sessions for which there is an engine object, and `connected_engines`
(sm.py:46-48).  The latter holds its values weakly: an entry disappears with the engine object. -/
structure Engines where
  sessions : List MSession
  held : List Nat
  registry : List (EngineKey × Nat)

/-- Look-up in `connected_engines` (sm.py:82). -/
def Engines.lookup (e : Engines) (k : EngineKey) : Option Nat :=
  (e.registry.find? fun x => x.1 = k).map Prod.snd

/-- Assignment to an item of a dictionary: a present key keeps its place (sm.py:67, 86). -/
def insertKey (k : EngineKey) (i : Nat) (l : List (EngineKey × Nat)) : List (EngineKey × Nat) :=
  if l.any fun x => x.1 = k then l.map fun x => if x.1 = k then (k, i) else x else l ++ [(k, i)]

/-- `EngineError` of `matlab.engine` (sm.py:79, 84). -/
def engineError : PyErr := .other 1

/-- An engine object for session `i`, if there is none yet (sm.py:47-48). -/
def Engines.attach (e : Engines) (i : Nat) : Engines × Except PyErr Nat :=
  if i ∈ e.held then (e, .error engineError) else ({ e with held := i :: e.held }, .ok i)

/-- `matlab.engine.connect_matlab(n)`: the living session that is shared as `n` (sm.py:84). -/
def Engines.connectMatlab (e : Engines) (n : String) : Engines × Except PyErr Nat :=
  match e.sessions.findIdx? fun s => s.alive && s.name = some n with
  | none => (e, .error engineError)
  | some i => e.attach i

/-- `matlab.engine.connect_matlab()`: the first living shared session, or a new one, whose name is `auto` (sm.py:79). -/
def Engines.connectMatlabAny (e : Engines) (pid : Nat) (auto : String) : Engines × Except PyErr Nat :=
  match e.sessions.findIdx? fun s => s.alive && s.name.isSome with
  | none => ({ e with sessions := e.sessions ++ [⟨pid, some auto, true⟩] } : Engines).attach e.sessions.length
  | some i => e.attach i

/-- `cls.connected_engines[engine.matlab.engine.engineName()] = engine` (sm.py:86-87).  Simplification: a session without
a name has the key `''`. -/
def Engines.register : Engines × Except PyErr Nat → Engines × Except PyErr Nat
  | (e, .error x) => (e, .error x)
  | (e, .ok i) =>
    ({ e with registry := insertKey (.name ((e.sessions[i]?.bind MSession.name).getD "")) i e.registry }, .ok i)

/-- `_connect_to_engine` with a name (sm.py:70-72, 80-87). -/
def Engines.connectName (e : Engines) (n : String) : Engines × Except PyErr Nat :=
  match e.lookup (.name n) with
  | some i => (e, .ok i)
  | none => Engines.register (e.connectMatlab n)

/-- `_connect_to_engine(True)` (sm.py:75-79, 86-87). -/
def Engines.connectAny (e : Engines) (pid : Nat) (auto : String) : Engines × Except PyErr Nat :=
  match e.registry with
  | x :: _ => (e, .ok x.2)
  | [] => Engines.register (e.connectMatlabAny pid auto)

/-- `_start_engine` (sm.py:62-68). -/
def Engines.start (e : Engines) (pid : Nat) : Engines × Except PyErr Nat :=
  ({ sessions := e.sessions ++ [⟨pid, none, true⟩], held := e.sessions.length :: e.held,
     registry := insertKey (.pid pid) e.sessions.length e.registry }, .ok e.sessions.length)

/-- `SpecialMeasureMatlab.__init__` up to line 60: `connect=''` starts a new session, too (sm.py:50-60). -/
def Engines.construct (e : Engines) (connect : String) (pid : Nat) : Engines × Except PyErr Nat :=
  if connect = "" then e.start pid else e.connectName connect

/-- The events in a program and on its machine (sm.py:46-87; the events other than constructions and the end of an
object happen in MATLAB). -/
inductive EngineOp
  | construct (connect : String) (pid : Nat)
  | connectAny (pid : Nat) (auto : String)
  | drop (i : Nat)
  | opened (pid : Nat) (name : Option String)
  | shared (i : Nat) (name : String)
  | ended (i : Nat)

/-- One event (sm.py:46-87).  The last engine object of session `i` is collected: its entries vanish; a session is opened by
someone else; a session is shared in MATLAB (possible once); a session ends. -/
def Engines.step (e : Engines) : EngineOp → Engines
  | .construct c pid => (e.construct c pid).1
  | .connectAny pid auto => (e.connectAny pid auto).1
  | .drop i => { e with held := e.held.filter (· ≠ i), registry := e.registry.filter fun x => x.2 ≠ i }
  | .opened pid name => { e with sessions := e.sessions ++ [⟨pid, name, true⟩] }
  | .shared i name =>
    { e with sessions := e.sessions.modify i fun s => if s.name.isNone then { s with name := some name } else s }
  | .ended i => { e with sessions := e.sessions.modify i fun s => { s with alive := false } }

/-- A history (sm.py:46-87). -/
def Engines.runOps (e : Engines) (ops : List EngineOp) : Engines := ops.foldl Engines.step e

end Qtune.Matlab
