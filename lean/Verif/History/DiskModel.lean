import Verif.History.Model
import Verif.History.Spec
import Verif.Times.Model
import Mathlib.Logic.Function.Basic

/-!
# Model of the files of an autotuner and of `History.load_directory`

Simplification: the writer has finished (its failures and crashes are the subject of `Writer`), a file contains the
autotuner as it was saved (`Storage`, C14), and nobody else writes into the directory.  `S` is the type of saved autotuners.
-/

namespace Qtune.History

variable {S γ κ ρ π W X V P C : Type}

/-- An entry of a directory.  Listed in history.py:334-335. -/
inductive Entry (S : Type)
  | file (a : S)
  | directory

/-- The directories: by path (innermost name first), the entries in the order in which they were made; `none` if there is no
such directory.  Used in autotuner.py:232-236. -/
abbrev Disk (S : Type) := List String → Option (List (String × Entry S))

/-- A new entry of directory `p`.  autotuner.py:232-236. -/
def Disk.add (d : Disk S) (p : List String) (name : String) (e : Entry S) : Disk S :=
  Function.update d p ((d p).map (· ++ [(name, e)]))

/-- `if not os.path.isdir(p): os.makedirs(p)` (autotuner.py:233-234). -/
def Disk.makedirs (d : Disk S) : List String → Disk S
  | [] => d
  | name :: p => if (d (name :: p)).isSome then d
    else Function.update ((d.makedirs p).add p name .directory) (name :: p) (some [])

/-- `save_current_status` (autotuner.py:227-238) at time `t` with storage path `p`. -/
def Disk.save (d : Disk S) (p : List String) (t : Times.DateTime) (a : S) : Disk S :=
  (d.makedirs p).add p (Times.fileName ".hdf5" t) (.file a)

/-- An autotuner with a storage path: a call of `iterate` at time `t` after which it is `a`, or `load_auto_tuner` at time `t`.
autotuner.py:243-291, 317-327. -/
inductive FileOp (S : Type)
  | saved (t : Times.DateTime) (a : S)
  | reloaded (t : Times.DateTime)

/-- The disk and the storage path after some operations.  The time of a reload is appended to the path
(autotuner.py:77-78, `Autotuner.Reload`). -/
def files (d : Disk S) (p : List String) : List (FileOp S) → Disk S × List String
  | [] => (d, p)
  | .saved t a :: l => files (d.save p t a) p l
  | .reloaded t :: l => files d (Times.timeString t :: p) l

/-- The tag of the `OSError` that `h5py.File` raises for a directory.  history.py:336. -/
def osError : PyErr := .other 1

/-- `append_autotuner` for the entries in their order.  history.py:336-338. -/
def loadEntries [DecidableEq γ] (view : S → View γ κ ρ) (full : String → π) (h : Hist γ κ ρ π) :
    List (String × Entry S) → Except PyErr (Hist γ κ ρ π)
  | [] => .ok h
  | (_, .directory) :: _ => .error osError
  | (name, .file a) :: l =>
    match append h (view a) (full name) with
    | .error e => .error e
    | .ok h => loadEntries view full h l

/-- `History(path)` for a directory (history.py:327-338): `entries` is what `os.listdir` returns, in any order; `full` is
`os.path.join(path, ·)`. -/
def loadDirectory [DecidableEq γ] (view : S → View γ κ ρ) (full : String → π) (entries : List (String × Entry S)) :
    Except PyErr (Hist γ κ ρ π) :=
  loadEntries view full Hist.empty (entries.mergeSort fun a b => decide (a.1 ≤ b.1))

/-- What the history reads of a saved autotuner.  history.py:536-570. -/
def Reader.saved (R : Reader W γ κ ρ) (H : Autotuner.Hierarchy W X V P C) (a : Autotuner.Snapshot W V) : View γ κ ρ :=
  ⟨R.lastVoltages a.tuners, (List.range H.len).map (R.cols a.tuners), a.index, a.pending.isSome, a.status⟩

/-- The autotuners that were saved, according to the log.  autotuner.py:235-236. -/
def savedIn (evs : List (Autotuner.Event W V P)) : List (Autotuner.Snapshot W V) :=
  evs.filterMap fun e => match e with
    | .saved a => some a
    | _ => none

end Qtune.History
