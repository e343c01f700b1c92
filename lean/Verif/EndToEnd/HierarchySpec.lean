import Verif.EndToEnd.HierarchyModel
import Verif.EndToEnd.Cycles

/-! # Specification: several tuners on an affine device -/

namespace Qtune.EndToEnd

open Qtune.Tuner Qtune.Gradient Qtune.Autotuner

/-- An affine device with `m` parameters on `n` gates and the set up of `K` tuners.  Parameter `k` is tuned
by the tuner `owner k`; it is also listed in the targets of the other tuners, but without set point. -/
structure Plan (n m K : Nat) where
  name : Fin m → String
  owner : Fin m → Nat
  /-- `row i k` is the row of parameter `k` in the target of tuner `i` -/
  row : Nat → Fin m → Row
  /-- set points -/
  desired : Fin m → ℝ
  /-- rescaling factors in the target of the owner -/
  scale : Fin m → ℝ
  /-- gradient and offset of the responses -/
  grad : Fin m → Vec n
  offset : Fin m → ℝ
  /-- gates that tuner `i` uses -/
  gates : Nat → List (Fin n)
  /-- results of the evaluators of tuner `i` at given voltages -/
  outs : Nat → Volt (Fin n) → List Outcome
  /-- variances that the evaluators report -/
  variances : Set ℝ

variable {n m K : Nat}

/-- The response of parameter `k`. -/
def Plan.response (P : Plan n m K) (k : Fin m) (v : Vec n) : ℝ := (∑ i, P.grad k i * v i) + P.offset k

/-- The target of tuner `i`. -/
def Plan.target (P : Plan n m K) (i : Nat) : Target := List.ofFn (P.row i)

/-- What is assumed of device and targets. -/
structure Plan.Valid (P : Plan n m K) : Prop where
  gates_nodup : ∀ i, (P.gates i).Nodup
  names : Function.Injective P.name
  row_name : ∀ i k, (P.row i k).name = P.name k
  owner : ∀ k, P.owner k < K
  /-- every tuner has something to tune -/
  busy : ∀ i < K, ∃ k, P.owner k = i
  /-- the owner has a set point -/
  own : ∀ k, (P.row (P.owner k) k).desired = some (P.desired k) ∧
    (P.row (P.owner k) k).rescaling = some (P.scale k) ∧ P.scale k ≠ 0
  /-- the other tuners have none -/
  other : ∀ i k, P.owner k ≠ i → (P.row i k).desired = none
  tolerance : ∀ i k tol, (P.row i k).tolerance = some tol → 0 < tol
  /-- the gradients are linearly independent on the gates of each tuner -/
  independent : ∀ i < K, LinearIndependent ℝ fun k => fun j : {j // j ∈ P.gates i} => P.grad k j
  /-- the evaluators of a tuner report the responses of its own parameters with some variances, and nothing
  on the parameters of the others -/
  evaluators : ∀ i < K, ∀ v : Vec n, ∃ values variances : Series,
    collect (P.outs i fun j => some (v j)) = .ok (values, variances) ∧
    ∀ k, (P.owner k = i → values.lookup (P.name k) = some (some (P.response k v)) ∧
        ∃ y ∈ P.variances, variances.lookup (P.name k) = some (some y)) ∧
      (P.owner k ≠ i → values.lookup (P.name k) = none ∧ variances.lookup (P.name k) = none)

/-- The set points of tuner `i` are met at `q` within the tolerances. -/
def Plan.Met (P : Plan n m K) (i : Nat) (q : Vec n) : Prop :=
  ∀ k tol, P.owner k = i → (P.row i k).tolerance = some tol →
    |P.desired k - P.response k q / P.scale k| < tol

/-- The tuning is complete within `N` calls, the voltages then meet the set points of all tuners. -/
def Plan.CompletesWithin {X : Type} (P : Plan n m K) (I : Newton.EstI X (Fin n))
    (lstsq : Newton.Lstsq (Fin n)) (N : Nat)
    (s : Autotuner.State (Shared X n) (Volt (Fin n)) (Volt (Fin n))) : Prop :=
  ∃ M ≤ N, ∃ s', iterates (multiHierarchy I lstsq K P.outs) M s = .ok s' ∧
    isComplete (multiHierarchy I lstsq K P.outs) s' = true ∧
    ∃ q : Vec n, s'.expt = volts q ∧ ∀ i < K, P.Met i q

/-- Tuner `i` as it is set up: the target and the gates of the plan, no queued voltages. -/
structure Plan.Tuner {X : Type} (P : Plan n m K) (i : Nat) (t : OneTuner X n) : Prop where
  target : t.solver.target = P.target i
  gates : t.solver.gates = P.gates i
  index : t.solver.values.index = List.ofFn P.name
  /-- the tuner keeps track of own parameters only (the default, parameter_tuner.py:62-65) -/
  lastIndex : ∀ l ∈ t.lastValues.index, ∃ k, P.owner k = i ∧ l = P.name k
  queued : t.queued = 0

end Qtune.EndToEnd
