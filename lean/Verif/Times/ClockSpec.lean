import Verif.Times.ClockModel
import Verif.Times.Spec
import Mathlib.Algebra.Order.Group.Abs

/-! # The time between two dates -/

namespace Qtune.Times

/-- A date that exists. -/
def RealDate (t : DateTime) : Prop := Valid t ∧ t.day ≤ daysIn t.year t.month

/-- The number of days before the first of January of a year (the years before it count 365 days, and one more every
fourth year, except for centuries that cannot be divided by four). -/
def daysBeforeYear (y : Nat) : Nat := 365 * (y - 1) + (y - 1) / 4 - (y - 1) / 100 + (y - 1) / 400

/-- The number of days of a year before the first of a month. -/
def daysBeforeMonth (y m : Nat) : Nat :=
  [0, 0, 31, 59, 90, 120, 151, 181, 212, 243, 273, 304, 334].getD m 0 + if leap y ∧ 2 < m then 1 else 0

/-- Microseconds since the beginning of the calendar. -/
def micros (t : DateTime) : Nat :=
  ((((daysBeforeYear t.year + daysBeforeMonth t.year t.month + (t.day - 1)) * 24 + t.hour) * 60 + t.minute) * 60 +
    t.second) * 1000000 + t.microsecond

/-- `r` rounds nonnegative numbers to a nearest natural number. -/
def Rounds (r : ℝ → Nat) : Prop := ∀ x, 0 ≤ x → |(r x : ℝ) - x| ≤ 1 / 2

end Qtune.Times
