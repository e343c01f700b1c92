import Verif.Times.ClockModel

/-! # Model of the names of the data files of scans (sm.py:193-222, experiment.py:43-47) -/

namespace Qtune.Times

/-- The beginning of the name of the data file of a measurement (sm.py:197, 204, 211, 215, 219); the measurements that
`LegacyDQDRefactored.measure` knows. -/
def scanPrefix (measurement : String) : Option String :=
  if measurement = "line_scan" then some "line_scan"
  else if measurement = "detune_scan" then some "detune_scan_"
  else if measurement = "lead_scan" then some "lead_scan"
  else if measurement = "load_scan" then some "load_scan"
  else if measurement = "2d_scan" then some ""
  else none

/-- The name of the data file of a measurement at a time (`get_file_name`, experiment.py:43-47); `ValueError` if the
measurement is not known (sm.py:224). -/
def scanFile (measurement : String) (t : DateTime) : Except PyErr String :=
  match scanPrefix measurement with
  | none => .error .valueError
  | some p => .ok (p ++ timeString t)

/-- The options that are given to MATLAB (sm.py:196-197): a copy of the options of the measurement, in which `file_name` is
set; the other options are left out of the model. -/
def scanOptions {α : Type} (options : List (String × α)) (name : α) : List (String × α) :=
  if options.any (·.1 == "file_name") then options.map fun p => if p.1 == "file_name" then (p.1, name) else p
  else options ++ [("file_name", name)]

end Qtune.Times
