import Verif.EndToEnd.Model
import Verif.EndToEnd.Kalman

/-! # Model of `Autotuner.all_estimators_ready` (autotuner.py:126-139) -/

namespace Qtune.Ready

open Qtune.Tuner (Volt)

variable {E ι : Type}

open Classical in
/-- The body of the inner loop (autotuner.py:136-138): `true` if the loop goes on, `false` if the
property returns `False`.  `require_measurement` is called a second time if the first result is a Series;
an empty Series is one that mentions no gate. -/
noncomputable def askEst (I : Newton.EstI E ι) (gates : List ι) (e : E) : E × Except PyErr Bool :=
  match I.require gates none e with                                             -- line 136
  | (e', .error err) => (e', .error err)
  | (e', .ok none) => (e', .ok true)
  | (e', .ok (some _)) =>
    match I.require gates none e' with                                          -- line 137
    | (e'', .error err) => (e'', .error err)
    | (e'', .ok none) => (e'', .error .attributeError)
    | (e'', .ok (some q)) => (e'', .ok (decide (∀ i, q i = none)))

/-- The inner loop (autotuner.py:135-138). -/
noncomputable def askAll (I : Newton.EstI E ι) (gates : List ι) : List E → List E × Except PyErr Bool
  | [] => ([], .ok true)
  | e :: es =>
    match askEst I gates e with
    | (e', .error err) => (e' :: es, .error err)
    | (e', .ok false) => (e' :: es, .ok false)
    | (e', .ok true) =>
      match askAll I gates es with
      | (es', r) => (e' :: es', r)

/-- `all_estimators_ready` (autotuner.py:126-139) for the solvers of the hierarchy; `none` stands for a
solver of another class.  Simplification: no solver belongs to two tuners (a shared one is asked
again). -/
noncomputable def allReady (I : Newton.EstI E ι) :
    List (Option (Newton.State E ι)) → List (Option (Newton.State E ι)) × Except PyErr Bool
  | [] => ([], .ok true)
  | none :: ss =>
    match allReady I ss with
    | (ss', r) => (none :: ss', r)
  | some s :: ss =>
    match askAll I s.gates s.ests with
    | (es, .error err) => (some { s with ests := es } :: ss, .error err)
    | (es, .ok false) => (some { s with ests := es } :: ss, .ok false)
    | (es, .ok true) =>
      match allReady I ss with
      | (ss', r) => (some { s with ests := es } :: ss', r)

end Qtune.Ready
