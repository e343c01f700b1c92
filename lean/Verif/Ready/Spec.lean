import Verif.Ready.Model

/-! # Specifications for `all_estimators_ready` -/

namespace Qtune.Ready

open Qtune.Tuner (Volt)

variable {E ι : Type}

/-- The estimator requires no measurement. -/
def NothingRequired (I : Newton.EstI E ι) (gates : List ι) (e : E) : Prop :=
  (I.require gates none e).2 = .ok none

/-- One use of a solver. -/
inductive Call (ι : Type)
  /-- `update_after_step(position, values, variances)` -/
  | update (v : Volt ι) (values variances : Series)
  /-- `suggest_next_position(tuned_parameters)` -/
  | suggest (tuned : List String)
  /-- the autotuner's `all_estimators_ready` is read -/
  | query

/-- What a call returns or raises. -/
inductive Result (ι : Type)
  | update (r : Except PyErr Unit)
  | suggest (r : Except PyErr (ι → Option Val))

/-- The solver after a sequence of calls and the results of all calls but the queries; exceptions do not
end the sequence. -/
noncomputable def run (I : Newton.EstI E ι) (lstsq : Newton.Lstsq ι) :
    List (Call ι) → Newton.State E ι → Newton.State E ι × List (Result ι)
  | [], s => (s, [])
  | .update v x y :: cs, s =>
    match Newton.update I v x y s with
    | (s', r) => match run I lstsq cs s' with
      | (s'', rs) => (s'', .update r :: rs)
  | .suggest tuned :: cs, s =>
    match Newton.suggest I lstsq tuned s with
    | (s', r) => match run I lstsq cs s' with
      | (s'', rs) => (s'', .suggest r :: rs)
  | .query :: cs, s =>
    match (allReady I [some s]).1 with
    | [some s'] => run I lstsq cs s'
    | _ => run I lstsq cs s

/-- The calls without the queries. -/
def withoutQueries : List (Call ι) → List (Call ι)
  | [] => []
  | .query :: cs => withoutQueries cs
  | c :: cs => c :: withoutQueries cs

end Qtune.Ready
