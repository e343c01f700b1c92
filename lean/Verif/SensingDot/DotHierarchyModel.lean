import Verif.SensingDot.Model
import Verif.Evaluator.Sd1dModel
import Verif.Autotuner.Model

/-!
# A hierarchy that begins with a sensing dot (setup_tutorial.ipynb, cells 6-9 and 19)

The first tuner is a `SensingDotTuner` whose cheap evaluator is a `SensingDot1D`; all other tuners are arbitrary.
-/

namespace Qtune.SensingDot

open Qtune.Tuner Qtune.Evaluator

/-- The objects of the hierarchy: the first tuner, its cheap evaluator and everything else.  parameter_tuner.py:310-331, evaluator.py:576-613. -/
structure DotWorld (S ι R : Type) where
  tuner : SDTuner S ι
  scan : SD1
  rest : R

/-- The result of an evaluator as a pair of Series.  evaluator.py:632-636. -/
def asOutcome : Except PyErr (List (String × ℝ) × List (String × ℝ)) → Outcome
  | .error e => .error e
  | .ok (p, v) => .ok (p.map fun e => (e.1, some e.2), v.map fun e => (e.1, some e.2))

variable {S ι R X P C : Type}

/-- `is_tuned` of the first tuner (parameter_tuner.py:345-372) with `SensingDot1D.evaluate` (evaluator.py:615-636) as the only cheap evaluator.
`read` are the voltages that the evaluator reads, `measure` the data of the scan and `expensive` the results of the expensive evaluators.
Simplification: the scan leaves the experiment as it is. -/
noncomputable def dotIsTuned (I : SolverI S ι) (poly : Polynomials) (read : X → Except PyErr (List (String × ℝ)))
    (measure : X → SD1 → Except PyErr (List ℝ)) (expensive : X → List Outcome) (v : Volt ι) (w : DotWorld S ι R) (x : X) :
    (DotWorld S ι R × X) × Except PyErr Bool :=
  let r := w.scan.evaluate poly (read x) (measure x)
  let t := isTuned I [asOutcome r.2] (expensive x) v w.tuner
  ((⟨t.1, r.1, w.rest⟩, x), t.2.2)

end Qtune.SensingDot
