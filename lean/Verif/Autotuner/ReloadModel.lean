import Verif.Times.Model

/-!
# Model of the constructor of `Autotuner` and of its HDF5 description

autotuner.py:37-84 (`__init__`) and 302-311 (`to_hdf5`).  Texts are strings; `os.path.join`
is that of POSIX systems.
-/

namespace Qtune.Autotuner.Reload

/-- `os.path.join(a, b)`.  Used in autotuner.py:78. -/
def join (a b : String) : String :=
  if b.toList.head? = some '/' then b
  else if a = "" ∨ a.toList.getLast? = some '/' then a ++ b
  else a ++ "/" ++ b

/-- A parameter tuner, as far as the constructor touches it: `last_voltages` and everything
else.  Used in autotuner.py:68-70; parameter_tuner.py:101-103. -/
structure Tuner (W V : Type) where
  lastVoltages : Option V
  rest : W

/-- The arguments of `__init__`, autotuner.py:37-40.  The experiment is given separately. -/
structure Args (W V : Type) where
  tuners : List (Tuner W V)
  index : Int := 0
  status : Bool := false
  pending : Option V := none
  storagePath : Option String := none
  appendTime : Bool := true
  lastSaveFile : Option String := none

/-- The attributes that `__init__` sets, autotuner.py:66-82. -/
structure Tuning (W V : Type) where
  tuners : List (Tuner W V)
  index : Int
  status : Bool
  pending : Option V
  storagePath : Option String
  lastSaveFile : Option String

/-- `__init__`, autotuner.py:66-84: `now` is the value of `time_string()`, `read` the voltages
that the experiment returns (they do not change while the constructor runs). -/
def construct {W V : Type} (now : String) (read : V) (a : Args W V) : Tuning W V where
  tuners := a.tuners.map fun t =>
    match t.lastVoltages with
    | none => { t with lastVoltages := some read }
    | some _ => t
  index := a.index
  status := a.status
  pending := a.pending
  storagePath := match a.storagePath with
    | none => none
    | some p =>
      if p = "" then none
      else if a.appendTime then some (join p now) else some p
  lastSaveFile := a.lastSaveFile

/-- `to_hdf5`, autotuner.py:302-311: there is no entry for `append_time_to_path`, so the
constructor is called with its default. -/
def toHdf5 {W V : Type} (s : Tuning W V) : Args W V where
  tuners := s.tuners
  index := s.index
  status := s.status
  pending := s.pending
  storagePath := s.storagePath
  lastSaveFile := s.lastSaveFile

/-- `Autotuner(**autotuner.to_hdf5())`, evaluated at the time `now`.
autotuner.py:302-311, 37-84; storage.py:202-208. -/
def reload {W V : Type} (now : String) (read : V) (s : Tuning W V) : Tuning W V :=
  construct now read (toHdf5 s)

end Qtune.Autotuner.Reload
