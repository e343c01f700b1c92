import Verif.Autotuner.Model

/-!
# Model of the reload windows of the user interface (`ReloadWidget`, gui.py:388-470, 608-626)

Simplification: the buttons are pressed while the worker is paused (its interleavings are modelled in `Gui.Model`), and
the history is the list of its rows: the voltages and the autotuner in the file of the row (`History.Model`, C60, and
`History.GapModel`, C138, relate it to the appended autotuners).
-/

namespace Qtune.Gui.Reload

open Qtune.Autotuner

variable {W X V P C : Type}

/-- A reload window: its autotuner (`auto_tuner`), the number on which its buttons act (`_tune_run_number`), and the text
of its line edit.  gui.py:391-413. -/
structure Window where
  tuner : Nat
  number : Int
  shown : Int

/-- The autotuner objects of the program, the experiment that they share (`reserved`, autotuner.py:151-153, gui.py:463), the
autotuner of the main window (gui.py:476), the reload windows (gui.py:574) and the rows of the history (gui.py:477). -/
structure Session (W X V : Type) where
  objects : List (Snapshot W V)
  expt : X
  current : Nat
  windows : List Window
  rows : List (V × Snapshot W V)

/-- `iloc[i]` and `list[i]` (gui.py:451, history.py:187-188): negative numbers count from the end. -/
def pyGet {A : Type} (l : List A) (i : Int) : Option A :=
  if 0 ≤ i then l[i.toNat]? else if 0 ≤ i + l.length then l[(i + l.length).toNat]? else none

/-- The setter of `tune_run_number` (gui.py:425-436); `none` for a text that is no integer; `n` rows are stored. -/
def clampNumber (t : Option Int) (n : Nat) : Int :=
  if t.getD 0 < 0 then 0 else if (n : Int) ≤ t.getD 0 then n - 1 else t.getD 0

/-- `GUI.spawn_reload_window` and `ReloadWidget.__init__` (gui.py:391-413, 613-626). -/
def spawn (s : Session W X V) : Session W X V := { s with windows := s.windows ++ [⟨s.current, 0, 1⟩] }

/-- `refreh_tune_run_number` (gui.py:442-446) of window `i`. -/
def edit (i : Nat) (t : Option Int) (s : Session W X V) : Session W X V :=
  { s with windows := s.windows.modify i fun w => ⟨w.tuner, clampNumber t s.rows.length, clampNumber t s.rows.length⟩ }

/-- `reload_voltages` (gui.py:450-456) of window `i`.  Exceptions are logged (`log_exceptions`, gui.py:449). -/
def voltages (H : Hierarchy W X V P C) (i : Nat) (s : Session W X V) : Session W X V :=
  match s.windows[i]? with
  | none => s
  | some w =>
    match pyGet s.rows w.number with
    | none => s                                                                     -- `IndexError`
    | some row =>
      match s.objects[w.tuner]? with
      | none => s
      | some a =>
        match H.setVolt row.1 s.expt with                                           -- line 453
        | (x, .error _) => { s with expt := x }
        | (x, .ok ()) =>
          { s with expt := x, objects := s.objects.set w.tuner (restart H (a.load x)).1.snapshot }  -- line 454

/-- `reload_autotuner` (gui.py:460-468) of window `i` and `load_auto_tuner_from_reload_widget` (gui.py:608-609).  If
`restart` raises, the window has the new autotuner already, but the main window is not told. -/
def state (H : Hierarchy W X V P C) (i : Nat) (s : Session W X V) : Session W X V :=
  match s.windows[i]? with
  | none => s
  | some w =>
    match pyGet s.rows w.number with
    | none => s
    | some row =>
      match restart H (row.2.load s.expt) with
      | (a, _, r) =>
        let s' := { s with
          objects := s.objects ++ [a.snapshot]
          windows := s.windows.modify i fun w => ⟨s.objects.length, w.number, w.shown⟩ }
        match r with
        | .error _ => s'
        | .ok () => { s' with current := s.objects.length }

open Classical in
/-- One round of the worker (gui.py:706-724): `iterate`, and the autotuner is appended to the history (`History.append`:
the voltages `volts` of its first tuner decide whether a row is changed or added). -/
noncomputable def work (H : Hierarchy W X V P C) (volts : W → V) (s : Session W X V) : Session W X V :=
  match s.objects[s.current]? with
  | none => s
  | some a =>
    if isComplete H (a.load s.expt) then s                                          -- lines 709-711
    else
      match iterate H (.ok ()) (a.load s.expt) with
      | (b, _, .error _) => { s with expt := b.expt, objects := s.objects.set s.current b.snapshot }
      | (b, _, .ok ()) =>
        { s with
          expt := b.expt
          objects := s.objects.set s.current b.snapshot
          rows := (if s.rows.getLast?.map Prod.fst = some (volts b.tuners) then s.rows.dropLast else s.rows) ++
            [(volts b.tuners, b.snapshot)] }

/-- What the user and the worker do.  gui.py:388-470, 608-626, 701-724. -/
inductive Act
  | work
  | spawn
  | edit (i : Nat) (t : Option Int)
  | voltages (i : Nat)
  | state (i : Nat)

/-- One action.  gui.py:388-470, 608-626, 701-724. -/
noncomputable def step (H : Hierarchy W X V P C) (volts : W → V) (s : Session W X V) : Act → Session W X V
  | .work => work H volts s
  | .spawn => spawn s
  | .edit i t => edit i t s
  | .voltages i => voltages H i s
  | .state i => state H i s

/-- A sequence of actions.  gui.py:388-470, 608-626, 701-724. -/
noncomputable def run (H : Hierarchy W X V P C) (volts : W → V) (s : Session W X V) (as : List Act) : Session W X V :=
  as.foldl (step H volts) s

/-- The main window opened with an autotuner and a history (gui.py:475-574). -/
def init (a : Snapshot W V) (x : X) (rows : List (V × Snapshot W V)) : Session W X V := ⟨[a], x, 0, [], rows⟩

end Qtune.Gui.Reload
