import Mathlib.Data.String.Basic
import Verif.Series

/-!
# Model of `TestExperiment` (basic_dqd.py:59-100)

The Series with the voltages is the object that the caller passed to the constructor
(line 71), so the same state is seen through the caller's variable and through the
experiment.
-/

namespace Qtune.TestExperiment

/-- `series[gate] = value`: the entry is replaced, or appended if there is none
(pandas enlarges a Series on assignment).  Used in basic_dqd.py:95. -/
def assign (s : Series) (g : String) (x : Val) : Series :=
  if g ∈ s.index then s.map fun p => if p.1 = g then (p.1, x) else p
  else s ++ [(g, x)]

/-- `series.sort_index()`: a new Series, sorted by label.  Used in basic_dqd.py:91. -/
def sortIndex (s : Series) : Series := s.mergeSort fun a b => decide (a.1 ≤ b.1)

/-- The state: the Series shared with the caller.  basic_dqd.py:71. -/
structure State where
  voltages : Series

/-- `TestExperiment.__init__`, basic_dqd.py:71 (the caller's object is kept, not copied).
The test for missing simulators is left out. -/
def init (initialVoltages : Series) : State := ⟨initialVoltages⟩

/-- `read_gate_voltages`, basic_dqd.py:90-91. -/
def read (s : State) : Series := sortIndex s.voltages

/-- `set_gate_voltages`, basic_dqd.py:93-96: the new state and the returned Series. -/
def set (s : State) (new : Series) : State × Series :=
  (⟨new.foldl (fun v p => assign v p.1 p.2) s.voltages⟩, new)

/-- The Series that the caller passed to the constructor, as the caller sees it now.  basic_dqd.py:71. -/
def callersSeries (s : State) : Series := s.voltages

end Qtune.TestExperiment
