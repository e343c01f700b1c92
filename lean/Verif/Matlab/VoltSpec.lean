import Verif.Matlab.VoltModel

/-!
# What setting voltages should do
-/

namespace Qtune.Matlab

/-- The voltages after exactly the gates of `new` were set to the values of `new`. -/
def exactly (v : Volts) (new : Series) (g : String) : Val :=
  match new.lookup g with
  | some x => x
  | none => v g

/-- A Series with different labels and no NaN. -/
def Proper (s : Series) : Prop := s.index.Nodup ∧ ∀ p ∈ s, p.2 ≠ none

/-- All listed channels have a voltage (no NaN). -/
def Numbers (v : Volts) (gates : List String) : Prop := ∀ g ∈ gates, v g ≠ none

/-- The voltage of `g` is a number in `[lo, hi]`. -/
def Within (lo hi : ℝ) (v : Volts) (g : String) : Prop := ∃ x, v g = some x ∧ lo ≤ x ∧ x ≤ hi

/-- The voltages of `g` in `v` and `w` are numbers and differ by at most `d`. -/
def Near (d : ℝ) (v w : Volts) (g : String) : Prop :=
  ∃ x y, v g = some x ∧ w g = some y ∧ |x - y| ≤ d

/-- The voltages after a sequence of calls of a setter, whatever their outcomes. -/
def afterCalls (set : Volts → Series → Volts × Except PyErr Series) (v : Volts)
    (calls : List Series) : Volts :=
  calls.foldl (fun v new => (set v new).1) v

end Qtune.Matlab
