import Verif.EndToEnd.Model

/-!
# An autotuner whose voltage source does not apply exactly the voltages that it is told

The resolution of the source is finite, or its voltages have an offset.  What the experiment reads back are either
the voltages that the source has been told or the ones that it applies.
-/

namespace Qtune.EndToEnd

open Qtune.Tuner

/-- The hierarchy with one `SubsetTuner` (autotuner.py:243-290) on an experiment (experiment.py:30-46) whose state are
the voltages that its source has been told last.  `src` are the voltages that the source applies; the evaluators
see these.  `back`: the experiment reads back what is applied; otherwise it reads back what it has been told.
Simplification: what is applied depends on the voltages of one call of `set_gate_voltages` only, which contains all
gates. -/
noncomputable def sourced {X : Type} {n : Nat} (I : Newton.EstI X (Fin n)) (lstsq : Newton.Lstsq (Fin n))
    (outs : Volt (Fin n) → List Outcome) (src : Volt (Fin n) → Volt (Fin n)) (back : Bool) :
    Autotuner.Hierarchy (OneTuner X n) (Volt (Fin n)) (Volt (Fin n)) (List String) Unit :=
  { hierarchy I lstsq (fun x => outs (src x)) with
    read := fun x => if back then src x else x                                 -- autotuner.py:274
    setVolt := fun v _ => (v, .ok ()) }                                        -- autotuner.py:268

end Qtune.EndToEnd
