import Verif.Base

/-!
# Model of the log window of the gui (gui.py:53-71, 496-500, 729-730, 778-803)

Loggers are objects of the module `logging` of Python, which form a tree; the model of this module follows its
documentation (`Logger.setLevel`, `Logger.getEffectiveLevel`, `Logger.hasHandlers`, `Logger.handle`).  `η` are the handlers of other programs.
Simplifications: handlers have no level and no filter of their own (`FunctionHandler` has none, gui.py:54), and `logging.disable` is not called.
-/

namespace Qtune.Gui.Log

/-- A handler: that of the gui with a number, or another one.  gui.py:53-59. -/
inductive Handler (η : Type)
  | gui (number : Nat)
  | other (h : η)
deriving DecidableEq

/-- A logger: `level` (0 is `NOTSET`), handlers and whether messages are propagated to the parent (module `logging`).  Used in gui.py:64-71,
778-792. -/
structure Logger (η : Type) where
  level : Nat
  handlers : List (Handler η)
  propagate : Bool

/-- All loggers by name.  `logging.getLogger` in gui.py:780. -/
abbrev Loggers (η : Type) := String → Logger η

variable {η : Type}

/-- `logger.hasHandlers()`: the logger or one that gets its messages has a handler (module `logging`).  The argument is the logger followed by
its parents.  Used in gui.py:784. -/
def hasHandlers : List (Logger η) → Bool
  | [] => false
  | l :: rest => !l.handlers.isEmpty || (l.propagate && hasHandlers rest)

/-- `logger.getEffectiveLevel()`: the first level that is set (module `logging`).  Used by `logger.info` and its relatives, for example
gui.py:710. -/
def effectiveLevel : List (Logger η) → Nat
  | [] => 0
  | l :: rest => if l.level ≠ 0 then l.level else effectiveLevel rest

/-- `logger.callHandlers`: the handlers that get a message, in this order (module `logging`).  Used by `logger.info` and its relatives, for example
gui.py:710. -/
def receivers : List (Logger η) → List (Handler η)
  | [] => []
  | l :: rest => l.handlers ++ if l.propagate then receivers rest else []

/-- The logger `n` and its parents; `parents` is determined by the name.  Module `logging`; used in gui.py:778-792. -/
def chain (parents : String → List String) (w : Loggers η) (n : String) : List (Logger η) := (n :: parents n).map w

/-- `logger.removeHandler`, `logger.addHandler`, `logger.setLevel`: one logger is changed.  gui.py:66, 786, 792. -/
def change (w : Loggers η) (n : String) (f : Logger η → Logger η) : Loggers η := fun m => if m = n then f (w n) else w m

/-- The loop that removes the handlers (gui.py:784-786).  `hasHandlers` looks at the parents, too; `next(iter(logger.handlers))` raises
`StopIteration` if the logger itself has no handler.  The argument is the number of handlers that the logger still has, see `removeAll`. -/
def removeLoop (parents : String → List String) (n : String) : Nat → Loggers η → Loggers η × Except PyErr Unit
  | 0, w => (w, if hasHandlers (chain parents w n) then .error (.other 3) else .ok ())     -- line 785: StopIteration
  | fuel + 1, w =>
    if hasHandlers (chain parents w n) then                                                -- line 784
      removeLoop parents n fuel (change w n fun l => { l with handlers := l.handlers.tail })    -- lines 785-786
    else (w, .ok ())

/-- `gui.py:784-786`: each pass removes one handler of the logger, so there are at most as many as it has. -/
def removeAll (parents : String → List String) (n : String) (w : Loggers η) : Loggers η × Except PyErr Unit :=
  removeLoop parents n (w n).handlers.length w

/-- A gui, as far as its log is concerned: its number, the selected entry of the list of levels, the loggers that this list changes, and the lines in the window, the newest last.
gui.py:62-71, 496-499, 782. -/
structure Window where
  number : Nat
  index : Nat
  loggers : List String
  lines : List (String × Nat × String)

/-- `configure_logging` (gui.py:778-792). -/
def configure (parents : String → List String) (n : String) (g : Window) (w : Loggers η) : Window × Loggers η × Except PyErr Unit :=
  let g := { g with loggers := g.loggers ++ [n] }                                   -- line 782
  match removeAll parents n w with
  | (w, .error e) => (g, w, .error e)
  | (w, .ok ()) => (g, change w n fun l => { l with handlers := l.handlers ++ [.gui g.number] }, .ok ())

/-- The levels in the list (gui.py:496-498): critical, error, warning, info, debug and not set. -/
def levels : List Nat := [50, 40, 30, 20, 10, 0]

/-- An entry of the list of levels is selected (gui.py:62-66): `currentIndexChanged` is emitted if it was not selected before. -/
def select (k : Nat) (g : Window) (w : Loggers η) : Window × Loggers η :=
  if k = g.index then (g, w) else
  ({ g with index := k }, g.loggers.foldl (fun w n => change w n fun l => { l with level := (levels[k]?).getD 0 }) w)

/-- `setup_default_gui` (gui.py:795-803), as far as the log is concerned. -/
def setup (parents : String → List String) (number : Nat) (w : Loggers η) : Window × Loggers η × Except PyErr Unit :=
  match configure parents "plotting" ⟨number, 5, [], []⟩ w with                     -- line 801
  | (g, w, .error e) => (g, w, .error e)
  | (g, w, .ok ()) =>
    match configure parents "qtune" g w with                                        -- line 802
    | (g, w, .error e) => (g, w, .error e)
    | (g, w, .ok ()) => ((select 3 g w).1, (select 3 g w).2, .ok ())                  -- line 803

/-- Whether a handler is the one with `gui.log` of the gui with this number.  gui.py:53-59, 788. -/
def isOf (number : Nat) : Handler η → Bool
  | .gui k => k == number
  | .other _ => false

/-- A message is given to logger `n`: the window gets it once for each time its handler is among the receivers (gui.py:58-59, 729-730). -/
def message (parents : String → List String) (w : Loggers η) (n : String) (level : Nat) (text : String) (g : Window) : Window :=
  if effectiveLevel (chain parents w n) ≤ level then
    { g with lines := g.lines ++ ((receivers (chain parents w n)).filter (isOf g.number)).map fun _ => (n, level, text) }
  else g

/-- What happens while the gui is open: messages of the program, and selections in the list of levels.  gui.py:62-66, 701-730. -/
inductive Act
  | message (logger : String) (level : Nat) (text : String)
  | select (k : Nat)

/-- One of these.  gui.py:62-66, 701-730. -/
def step (parents : String → List String) (s : Window × Loggers η) : Act → Window × Loggers η
  | .message n level text => (message parents s.2 n level text s.1, s.2)
  | .select k => select k s.1 s.2

/-- All of them.  gui.py:62-66, 701-730. -/
def run (parents : String → List String) (s : Window × Loggers η) (as : List Act) : Window × Loggers η := as.foldl (step parents) s

end Qtune.Gui.Log
