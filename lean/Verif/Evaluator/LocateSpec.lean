import Verif.Evaluator.Model
import Verif.Signal.TransitionSpec

/-!
# A device with lead transitions
-/

namespace Qtune.Evaluator

/-- A device: where the transition is on the axis of a scan made at the voltages `v`, and the shape of the transition. -/
structure Wire where
  position : Scan → (String → ℝ) → ℝ
  shape : Scan → ℝ → ℝ

/-- The distance of two points of a scan. -/
noncomputable def spacing (m : Scan) : ℝ := 2 * m.range / (m.nPoints - 1)

/-- The data that the device gives for a scan made at the voltages `v`. -/
noncomputable def Wire.scan (D : Wire) (m : Scan) (v : String → ℝ) : List ℝ :=
  Signal.transitionScan (D.shape m) (m.center - m.range) (spacing m) m.nPoints (D.position m v)

/-- The measurements of `evaluate` give the data of the device: each is made with the voltages of the beginning, of which the gate that
belongs to the measurement is displaced by `-charge_diagram_width`. -/
def Measures (D : Wire) (ev : LeadTransition) (outcome : Nat → Except PyErr (List ℝ)) (s : World) : Prop :=
  ∀ (k : Nat) (m : Scan) (g : String), ev.measurements[k]? = some m → ev.shifting[k]? = some g →
    outcome (s.log.length + k) = .ok (D.scan m fun h => if h = g then s.volts h - ev.width else s.volts h)

/-- The position nearest to `c` that a window of `w` points in the scan `m` can have. -/
noncomputable def inWindow (m : Scan) (w : Nat) (c : ℝ) : ℝ :=
  Signal.nearest (m.center - m.range + w * spacing m / 2)
    (m.center - m.range + w * spacing m / 2 + (m.nPoints - w - 2 : ℝ) * spacing m) c

end Qtune.Evaluator
