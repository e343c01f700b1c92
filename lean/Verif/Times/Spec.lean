import Verif.Times.Model

/-! # Chronological order -/

namespace Qtune.Times

/-- A date and time in the years 1000 to 9999. -/
structure Valid (t : DateTime) : Prop where
  year_ge : 1000 ≤ t.year
  year_le : t.year ≤ 9999
  month : 1 ≤ t.month ∧ t.month ≤ 12
  day : 1 ≤ t.day ∧ t.day ≤ 31
  hour : t.hour < 24
  minute : t.minute < 60
  second : t.second < 60
  microsecond : t.microsecond < 1000000

/-- `t` is earlier than `t'`. -/
def Earlier (t t' : DateTime) : Prop :=
  t.year < t'.year ∨ t.year = t'.year ∧ (t.month < t'.month ∨ t.month = t'.month ∧ (t.day < t'.day ∨
    t.day = t'.day ∧ (t.hour < t'.hour ∨ t.hour = t'.hour ∧ (t.minute < t'.minute ∨ t.minute = t'.minute ∧
      (t.second < t'.second ∨ t.second = t'.second ∧ t.microsecond < t'.microsecond)))))

end Qtune.Times
