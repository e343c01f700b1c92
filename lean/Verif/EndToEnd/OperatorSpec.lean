import Verif.EndToEnd.OperatorModel
import Verif.EndToEnd.HierarchySpec

/-! # Specification: sessions in which an operator intervenes -/

namespace Qtune.EndToEnd

open Qtune.Tuner Qtune.Gradient Qtune.Autotuner Qtune.TargetOps

variable {n m K : Nat} {X : Type}

/-- The same device and the same tuners, perhaps with other targets. -/
structure Plan.SameDevice (P P' : Plan n m K) : Prop where
  name : P'.name = P.name
  owner : P'.owner = P.owner
  scale : P'.scale = P.scale
  grad : P'.grad = P.grad
  offset : P'.offset = P.offset
  gates : P'.gates = P.gates
  outs : P'.outs = P.outs
  variances : P'.variances = P.variances

/-- The changes for tuner `i`. -/
def changesOf (cs : List (List (Column × Series))) (i : Nat) : List (Column × Series) := cs[i]?.getD []

/-- `P'` is `P` with the entries of the targets that are named in the changes `cs`; the result is a target for
the device again: the parameters keep their tuners and rescaling factors. -/
structure Plan.Retargets (P : Plan n m K) (cs : List (List (Column × Series))) (P' : Plan n m K) : Prop
    extends P.SameDevice P' where
  length : cs.length ≤ K
  once : ∀ i, ((changesOf cs i).map Prod.fst).Nodup
  known : ∀ i, ∀ e ∈ changesOf cs i, ∀ l ∈ e.2.index, ∃ k, l = P.name k
  assigned : ∀ i k c s, (c, s) ∈ changesOf cs i → P.name k ∈ s.index → c.get (P'.row i k) = s.val (P.name k)
  kept : ∀ i k c, (∀ s, (c, s) ∈ changesOf cs i → P.name k ∉ s.index) → c.get (P'.row i k) = c.get (P.row i k)
  valid : P'.Valid

/-- What can happen in a session that begins in the state `s₀` with the device and the targets `P₀`; the current
targets are those of the plan. -/
inductive Session (I : Newton.EstI X (Fin n)) (reset : Volt (Fin n) → X → X) (lstsq : Newton.Lstsq (Fin n))
    (P₀ : Plan n m K) (s₀ : Autotuner.State (Shared X n) (Volt (Fin n)) (Volt (Fin n))) :
    Plan n m K → Autotuner.State (Shared X n) (Volt (Fin n)) (Volt (Fin n)) → Prop
  | start : Session I reset lstsq P₀ s₀ P₀ s₀
  /-- a call of `iterate` -/
  | iterate {P s} : Session I reset lstsq P₀ s₀ P s →
      Session I reset lstsq P₀ s₀ P (iterate (operated I reset lstsq K P₀.outs) (.ok ()) s).1
  /-- the gate voltages are changed by hand and `restart` is called -/
  | restart {P s} (v : Vec n) : Session I reset lstsq P₀ s₀ P s →
      Session I reset lstsq P₀ s₀ P
        (restart (operated I reset lstsq K P₀.outs) { s with expt := fun i => some (v i) }).1
  /-- a call of `change_targets` -/
  | changeTargets {P P' s} (cs) : Session I reset lstsq P₀ s₀ P s → P.Retargets cs P' →
      Session I reset lstsq P₀ s₀ P' (changeTargets (operated I reset lstsq K P₀.outs) cs s).1

end Qtune.EndToEnd
