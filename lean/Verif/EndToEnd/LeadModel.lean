import Verif.EndToEnd.LocalSpec
import Verif.Evaluator.LocateSpec

/-!
# A tuner whose parameters are positions of lead transitions

The evaluator of the tuner is `LeadTransition`, its measurements are line scans of a device with lead transitions.
-/

namespace Qtune.EndToEnd

open Qtune.Tuner Qtune.Gradient Qtune.Evaluator

/-- A device with lead transitions, and what is configured for the tuning. -/
structure Bench (n m : Nat) where
  /-- names of the gates that the tuner uses -/
  name : Fin n → String
  /-- voltages of the other gates -/
  fixed : String → ℝ
  wire : Wire
  /-- settings of all scans -/
  scan : Scan
  sweep : Fin m → String
  shift : Fin m → String
  width : ℝ
  row : Fin m → Row
  gates : List (Fin n)

/-- The measurement `k`: all settings but the gate are the same (evaluator.py:526-529). -/
def Bench.measurement {n m : Nat} (B : Bench n m) (k : Fin m) : Scan :=
  ⟨B.sweep k, B.scan.center, B.scan.range, B.scan.nPoints⟩

/-- The evaluator (evaluator.py:512-536) with scans that only differ in the gate. -/
def Bench.evaluator {n m : Nat} (B : Bench n m) : LeadTransition :=
  ⟨List.ofFn B.shift, B.width, List.ofFn fun k => (B.measurement k)⟩

/-- The voltages of all gates when the gates of the tuner have the voltages `v`.  Interface of experiment.py:57-89. -/
noncomputable def Bench.world {n m : Nat} (B : Bench n m) (v : Volt (Fin n)) : String → ℝ := fun h =>
  match (List.finRange n).find? fun i => B.name i = h with
  | some i => (v i).getD 0
  | none => B.fixed h

/-- The voltages at which the scan `k` is made: the shifting gate is displaced (evaluator.py:541-542). -/
noncomputable def Bench.shifted {n m : Nat} (B : Bench n m) (k : Fin m) (v : Volt (Fin n)) : String → ℝ := fun h =>
  if h = B.shift k then B.world v h - B.width else B.world v h

/-- Where the transition `k` is on the axis of its scan. -/
noncomputable def Bench.position {n m : Nat} (B : Bench n m) (k : Fin m) (v : Vec n) : ℝ :=
  B.wire.position (B.measurement k) (B.shifted k (fun i => some (v i)))

/-- The data of the `k`-th measurement.  Interface of experiment.py:86-89. -/
noncomputable def Bench.data {n m : Nat} (B : Bench n m) (v : Volt (Fin n)) (k : Nat) : Except PyErr (List ℝ) :=
  if h : k < m then .ok (B.wire.scan (B.measurement ⟨k, h⟩) (B.shifted ⟨k, h⟩ v)) else .error .indexError

/-- What `LeadTransition.evaluate` returns (evaluator.py:537-570), the variances are constant (evaluator.py:569). -/
noncomputable def Bench.outs {n m : Nat} (B : Bench n m) (v : Volt (Fin n)) : List Outcome :=
  [match (B.evaluator.evaluate (B.data v) ⟨B.world v, []⟩).2 with
  | .error e => .error e
  | .ok r => .ok (r.map fun p => (p.1, some p.2), r.map fun p => (p.1, some ((1e-5 : ℝ) ^ 2)))]

/-- The position that is reported for the transition `k`. -/
noncomputable def Bench.reported {n m : Nat} (B : Bench n m) (k : Fin m) (v : Vec n) : ℝ :=
  match (B.evaluator.evaluate (B.data fun i => some (v i)) ⟨B.world fun i => some (v i), []⟩).2 with
  | .error _ => 0
  | .ok r => (r.lookup ("position_" ++ B.shift k)).getD 0

/-- The set points. -/
noncomputable def Bench.desired {n m : Nat} (B : Bench n m) (k : Fin m) : ℝ := (B.row k).desired.getD 0

/-- The rescaling factors. -/
noncomputable def Bench.scale {n m : Nat} (B : Bench n m) (k : Fin m) : ℝ := (B.row k).rescaling.getD 1

/-- The device as in C125 and C158: `grad` are the gradients of the positions. -/
noncomputable def Bench.setup {n m : Nat} (B : Bench n m) (grad : Fin m → Vec n) : Setup n m :=
  ⟨B.row, B.desired, B.scale, grad, B.reported, B.gates, B.outs, {(1e-5 : ℝ) ^ 2}⟩

/-- What is assumed: the target has set points, factors and positive tolerances for the parameters of the evaluator; the
window of the evaluator fits into the scan and the transitions are steepest in their middle; and for voltages at most `R` away from
`c` the positions of the transitions are affine functions of the voltages with the gradients `grad`, and in the part of the scan
where the window can be. -/
structure Bench.Valid {n m : Nat} (B : Bench n m) (grad : Fin m → Vec n) (c : Vec n) (R : ℝ) : Prop where
  gates_nodup : B.gates.Nodup
  gates_all : ∀ i, i ∈ B.gates
  nonempty : m ≠ 0
  shift : Function.Injective B.shift
  names : ∀ k, (B.row k).name = "position_" ++ B.shift k
  desired : ∀ k, (B.row k).desired = some (B.desired k)
  scale : ∀ k, (B.row k).rescaling = some (B.scale k) ∧ B.scale k ≠ 0
  tolerance : ∀ k tol, (B.row k).tolerance = some tol → 0 < tol
  range : 0 < B.scan.range
  window : windowPoints B.scan + 2 ≤ B.scan.nPoints
  shape : ∀ k, Signal.Peaked (B.wire.shape (B.measurement k)) (windowPoints B.scan * spacing B.scan / 2)
  affine : ∃ offset : Fin m → ℝ, ∀ k v, Near c R v → B.position k v = (∑ i, grad k i * v i) + offset k
  inView : ∀ k v, Near c R v → inWindow B.scan (windowPoints B.scan) (B.position k v) = B.position k v

/-- The error that the distance of the points causes, in units of the target. -/
noncomputable def Bench.error {n m : Nat} (B : Bench n m) : ℝ := 2 * spacing B.scan * len fun k => 1 / B.scale k

end Qtune.EndToEnd
