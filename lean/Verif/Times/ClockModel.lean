import Verif.Times.Model
import Mathlib.Data.Real.Basic

/-! # Model of the clock that names files (util.py:52-63) -/

namespace Qtune.Times

/-- Leap years of the calendar of `datetime`.  util.py:52-59. -/
def leap (y : Nat) : Bool := y % 4 == 0 && (y % 100 != 0 || y % 400 == 0)

/-- The number of days of a month.  util.py:52-59. -/
def daysIn (y m : Nat) : Nat :=
  if m = 2 then (if leap y then 29 else 28)
  else if m = 4 ∨ m = 6 ∨ m = 9 ∨ m = 11 then 30 else 31

/-- One microsecond later; `none` after the year 9999, where `datetime` raises `OverflowError`.  util.py:56. -/
def tick (t : DateTime) : Option DateTime :=
  if t.microsecond + 1 < 1000000 then some { t with microsecond := t.microsecond + 1 }
  else if t.second + 1 < 60 then some { t with microsecond := 0, second := t.second + 1 }
  else if t.minute + 1 < 60 then some { t with microsecond := 0, second := 0, minute := t.minute + 1 }
  else if t.hour + 1 < 24 then some { t with microsecond := 0, second := 0, minute := 0, hour := t.hour + 1 }
  else if t.day + 1 ≤ daysIn t.year t.month then
    some { t with microsecond := 0, second := 0, minute := 0, hour := 0, day := t.day + 1 }
  else if t.month + 1 ≤ 12 then some ⟨t.year, t.month + 1, 1, 0, 0, 0, 0⟩
  else if t.year + 1 ≤ 9999 then some ⟨t.year + 1, 1, 1, 0, 0, 0, 0⟩
  else none

/-- `start_datetime + timedelta(microseconds=n)`, util.py:56. -/
def addMicros : Nat → DateTime → Except PyErr DateTime
  | 0, t => .ok t
  | n + 1, t => match tick t with
    | none => .error (.other 7)
    | some t' => addMicros n t'

/-- `high_res_datetime.start` (util.py:59): what `perf_counter()` and the clock of the computer showed when the module was
imported. -/
structure Session where
  startPerf : ℝ
  startTime : DateTime

/-- The import of util.py at the time `p` of the performance counter (util.py:59); `wall` is what the clock of the
computer shows. -/
def startSession (wall : ℝ → DateTime) (p : ℝ) : Session := ⟨p, wall p⟩

/-- `high_res_datetime` (util.py:52-56) when `perf_counter()` is `now`.  `timedelta(seconds=x)` rounds to microseconds
with `r`.  Simplification: `now` is not before the start. -/
noncomputable def Session.highRes (r : ℝ → Nat) (s : Session) (now : ℝ) : Except PyErr DateTime :=
  addMicros (r ((now - s.startPerf) * 1000000)) s.startTime

/-- The name of the file saved at `now` (autotuner.py:235, util.py:62-63). -/
noncomputable def Session.saveName (r : ℝ → Nat) (s : Session) (ending : String) (now : ℝ) : Except PyErr String :=
  match s.highRes r now with
  | .error e => .error e
  | .ok t => .ok (fileName ending t)

end Qtune.Times
