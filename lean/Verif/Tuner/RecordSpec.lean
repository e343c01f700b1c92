import Verif.Tuner.RecordModel

/-! # The voltages at which a tuner was evaluated and tuned -/

namespace Qtune.Tuner.Record

open Qtune.Tuner

variable {S ι : Type}

/-- The voltages after an operation on an experiment with the voltages `x`. -/
def moved (x : Volt ι) : Op S ι → Volt ι
  | .set v => v
  | _ => x

/-- The voltages at which `is_tuned` was called with the answer `True`, oldest first.  `x` are the voltages at the
beginning, `res` the results of the operations. -/
def tunedAt (x : Volt ι) : List (Op S ι) → List (Res ι) → List (Volt ι)
  | op :: ops, .answer (.ok true) :: res => x :: tunedAt (moved x op) ops res
  | op :: ops, _ :: res => tunedAt (moved x op) ops res
  | _, _ => []

/-- The Series that the tuner keeps are none that the experiment writes to. -/
structure Apart (w : World ι) (t : RefTuner S ι) : Prop where
  own : w.own < w.next
  last : t.last < w.next ∧ t.last ≠ w.own
  evaluatable : ∀ r ∈ t.evaluatable, r < w.next ∧ r ≠ w.own
  tuned : ∀ r ∈ t.tuned, r < w.next ∧ r ≠ w.own

/-- One operation on an experiment with the voltages `x` and a tuner that keeps voltages instead of Series. -/
noncomputable def plainStep [Fintype ι] (I : SolverI S ι) (x : Volt ι) (t : SubsetTuner S ι) : Op S ι → SubsetTuner S ι × Res ι
  | .evaluate outs => ((isTuned I outs x t).1, .answer (isTuned I outs x t).2)
  | .suggest params => ((nextVoltages I params t).1, .voltages (nextVoltages I params t).2)
  | .set _ => (t, .nothing)
  | .restart f => ({ t with solver := f t.solver }, .nothing)

/-- Several operations. -/
noncomputable def plainRun [Fintype ι] (I : SolverI S ι) (x : Volt ι) (t : SubsetTuner S ι) :
    List (Op S ι) → SubsetTuner S ι × List (Res ι)
  | [] => (t, [])
  | op :: ops =>
    let s := plainStep I x t op
    let r := plainRun I (moved x op) s.1 ops
    (r.1, s.2 :: r.2)

end Qtune.Tuner.Record
