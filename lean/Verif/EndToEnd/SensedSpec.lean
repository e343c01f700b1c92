import Verif.EndToEnd.SensedModel
import Verif.EndToEnd.HierarchySpec
import Verif.SensingDot.Props
import Verif.Target.Props

/-! # Specification: a sensing dot and its tuner -/

namespace Qtune.EndToEnd

open Qtune.Tuner Qtune.Gradient Qtune.Autotuner

/-- A sensing dot and the set up of its tuner. -/
structure Sensor (n : Nat) where
  /-- names of the gates of the experiment -/
  gateName : Fin n → String
  /-- gates of the sensing dot -/
  gates : List (Fin n)
  target : Target
  /-- which parameter is the position of which gate -/
  mapping : List (String × Option String)
  /-- values and variances that the cheap and the expensive evaluators measure at given voltages -/
  cheap : Vec n → Series × Series
  expensive : Vec n → Series × Series
  /-- what the evaluators return -/
  cheapOuts : Volt (Fin n) → List Outcome
  expensiveOuts : Volt (Fin n) → List Outcome

variable {n m K : Nat}

/-- The sensing dot is sensitive: no value of the cheap measurement is at or below its minimum. -/
def Sensor.Sensitive (D : Sensor n) (q : Vec n) : Prop :=
  ¬ SensingDot.SomeAtOrBelow D.target Row.minimum (D.cheap q).1

open Classical in
/-- The measurement that leads to the next position: the expensive one, if some value of the cheap one is at
or below its cost threshold. -/
noncomputable def Sensor.scan (D : Sensor n) (q : Vec n) : Series × Series :=
  if SensingDot.SomeAtOrBelow D.target Row.costThreshold (D.cheap q).1 then D.expensive q else D.cheap q

/-- The parameter `p` is measured and is the position of gate `j`. -/
def Sensor.Position (D : Sensor n) (s : Series) (p : String) (j : Fin n) : Prop :=
  p ∈ s.index ∧ D.mapping.lookup p = some (some (D.gateName j))

/-- `q'` has the measured positions, and the voltages of `q` at all other gates. -/
def Sensor.Adjusts (D : Sensor n) (q q' : Vec n) : Prop :=
  ∀ j, (∀ p x, D.Position (D.scan q).1 p j → (p, some x) ∈ (D.scan q).1 → q' j = x) ∧
    ((∀ p, ¬ D.Position (D.scan q).1 p j) → q' j = q j)

/-- From `q`, at most `r` adjustments make the sensing dot sensitive. -/
inductive Sensor.Settles (D : Sensor n) : Nat → Vec n → Prop
  | sensitive {r : Nat} {q : Vec n} : D.Sensitive q → D.Settles r q
  | adjust {r : Nat} {q : Vec n} : (∀ q', D.Adjusts q q' → D.Settles r q') → D.Settles (r + 1) q

/-- What the evaluators of a group return. -/
structure Sensor.Reports (D : Sensor n) (outs : List Outcome) (s : Series × Series) : Prop where
  some_evaluator : outs ≠ []
  result : collect outs = .ok s
  nodup : s.1.index.Nodup
  has_variance : ∀ l ∈ s.1.index, l ∈ s.2.index
  /-- all values are numbers and their rescaling factors are not zero -/
  number : ∀ l x, (l, x) ∈ s.1 → ∃ y c, x = some y ∧ c ≠ 0 ∧ TargetOps.HasFactor D.target l c
  /-- positions are positions of gates of the sensing dot, one for each gate at most -/
  position : ∀ p g, p ∈ s.1.index → D.mapping.lookup p = some (some g) → ∃ j ∈ D.gates, g = D.gateName j
  once : ∀ p p' j, D.Position s.1 p j → D.Position s.1 p' j → p = p'

/-- What is assumed of the sensing dot. -/
structure Sensor.Valid (D : Sensor n) : Prop where
  gates : Function.Injective D.gateName
  names : D.target.names.Nodup
  cheap : ∀ q, D.Reports (D.cheapOuts (volts q)) (D.cheap q)
  expensive : ∀ q, D.Reports (D.expensiveOuts (volts q)) (D.expensive q)

/-- The tuner of the sensing dot as it is set up. -/
structure Sensor.Tuner (D : Sensor n) (t : SensingDot.SDTuner TargetOps.Forwarding (Fin n)) : Prop where
  target : t.solver.target = D.target
  mapping : t.solver.mapping = D.mapping
  gates : t.solver.next.index = D.gates.map D.gateName
  /-- all parameters of the evaluators are known (the default, parameter_tuner.py:312-317) -/
  known : ∀ q l, l ∈ (D.cheap q).1.index ∨ l ∈ (D.expensive q).1.index →
    l ∈ t.lastValues.index ∧ l ∈ t.lastVariances.index

/-- The gates of the sensing dot are not used by the other tuners and do not affect their parameters. -/
structure Sensor.Separate (D : Sensor n) (P : Plan n m K) : Prop where
  unused : ∀ i < K, ∀ j ∈ P.gates i, j ∉ D.gates
  unaffected : ∀ k, ∀ j ∈ D.gates, P.grad k j = 0

/-- The tuning is complete within `N` calls; the sensing dot is then sensitive and the voltages meet the set
points of all tuners. -/
def Plan.SensedWithin {X : Type} (P : Plan n m K) (D : Sensor n) (outs : Nat → Volt (Fin n) → List Outcome)
    (I : Newton.EstI X (Fin n)) (lstsq : Newton.Lstsq (Fin n)) (N : Nat)
    (s : Autotuner.State (Sensed X n) (Volt (Fin n)) (Fin n → Option Val)) : Prop :=
  ∃ M ≤ N, ∃ s', iterates (sensedHierarchy D.gateName D.cheapOuts D.expensiveOuts I lstsq K outs) M s = .ok s' ∧
    isComplete (sensedHierarchy D.gateName D.cheapOuts D.expensiveOuts I lstsq K outs) s' = true ∧
    ∃ q : Vec n, s'.expt = volts q ∧ D.Sensitive q ∧ ∀ i < K, P.Met i q

end Qtune.EndToEnd
