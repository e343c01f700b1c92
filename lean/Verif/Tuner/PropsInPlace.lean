import Verif.Tuner.InPlaceModel
import Verif.Tuner.Props
import Verif.Newton.Model

/-!
# C182: the units in which `is_tuned` judges
-/

namespace Qtune.Tuner

open Qtune.TargetOps

/-- The evaluators return a number for each row of the target, and every row has a factor that is not zero. -/
structure Complete (T : Target) (values variances : Series) (x f : String → ℝ) : Prop where
  rows : T ≠ []
  names : T.names.Nodup
  value : ∀ r ∈ T, values.lookup r.name = some (some (x r.name))
  variance : ∀ r ∈ T, (variances.lookup r.name).isSome
  factor : ∀ r ∈ T, r.rescaling = some (f r.name)
  nonzero : ∀ r ∈ T, f r.name ≠ 0

/-- All parameters agree with the target, if `y` are their values: each parameter with a tolerance differs from its set point by less than the
tolerance. -/
def Agrees (T : Target) (y : String → ℝ) : Prop :=
  ∀ r ∈ T, ∀ tol, r.tolerance = some tol → (∀ d, r.desired = some d → |d - y r.name| < tol) ∧ (r.desired = none → 0 < tol)

theorem withinTolerance_iff (r : Row) (y : ℝ) : WithinTolerance r (some y) ↔
    ∀ tol, r.tolerance = some tol → (∀ d, r.desired = some d → |d - y| < tol) ∧ (r.desired = none → 0 < tol) := by
  unfold WithinTolerance
  cases ht : r.tolerance with
  | none => simp
  | some tol => cases hd : r.desired <;> simp [Val.abs, Val.sub]

theorem row?_of_mem {T : Target} (hn : T.names.Nodup) {r : Row} (hr : r ∈ T) : T.row? r.name = some r := by
  induction T with
  | nil => simp at hr
  | cons a T ih =>
    simp only [Target.names, List.map_cons, List.nodup_cons] at hn
    rcases List.mem_cons.1 hr with h | h
    · subst h; simp [Target.row?]
    · have hne : a.name ≠ r.name := fun he => hn.1 (he ▸ List.mem_map_of_mem h)
      have := ih hn.2 h
      simp only [Target.row?, List.find?_cons, beq_eq_false_iff_ne.2 hne] at this ⊢
      exact this

section
variable {T : Target} {values variances : Series} {x f : String → ℝ}

theorem Complete.mem {l : String} (hl : l ∈ T.names) : ∃ r ∈ T, r.name = l := by
  obtain ⟨r, hr, h⟩ := List.mem_map.1 hl
  exact ⟨r, hr, h⟩

theorem Complete.factorOf (h : Complete T values variances x f) {l : String} (hl : l ∈ T.names) :
    Tuner.factor T l = some (f l) := by
  obtain ⟨r, hr, rfl⟩ := Complete.mem hl
  simp [Tuner.factor, row?_of_mem h.names hr, h.factor r hr]

theorem Complete.namesNe (h : Complete T values variances x f) : T.names ≠ [] := by
  have := h.rows
  cases T with
  | nil => exact absurd rfl this
  | cons a T => simp [Target.names]

theorem Complete.evaluate (h : Complete T values variances x f) {outs : List Outcome} (hc : collect outs = .ok (values, variances)) :
    evaluate T outs = .ok (T.names.map fun l => (l, some (x l)), T.names.map fun l => (l, variances.val l)) := by
  obtain ⟨r, hr⟩ := List.exists_mem_of_ne_nil _ h.rows
  have h1 : values.select T.names = .ok (T.names.map fun l => (l, some (x l))) := by
    unfold Series.select
    rw [if_neg]
    · congr 1
      apply List.map_congr_left
      intro l hl
      obtain ⟨r, hr, rfl⟩ := Complete.mem hl
      simp [Series.val, h.value r hr]
    · rintro ⟨-, hall⟩
      have := List.all_eq_true.1 hall r.name (List.mem_map_of_mem hr)
      simp [h.value r hr] at this
  have h2 : variances.select T.names = .ok (T.names.map fun l => (l, variances.val l)) := by
    unfold Series.select
    rw [if_neg]
    rintro ⟨-, hall⟩
    have h3 := List.all_eq_true.1 hall r.name (List.mem_map_of_mem hr)
    have h4 := h.variance r hr
    rw [Option.isNone_iff_eq_none] at h3
    rw [h3] at h4
    cases h4
  simp [Tuner.evaluate, hc, h1, h2]

theorem Complete.rescaled (h : Complete T values variances x f) :
    rescaleValues T (T.names.map fun l => (l, some (x l))) = T.names.map fun l => (l, some (x l / f l)) := by
  simp only [rescaleValues, List.map_map]
  apply List.map_congr_left
  intro l hl
  obtain ⟨r, hr, rfl⟩ := Complete.mem hl
  simp [h.factorOf hl, Val.div, h.nonzero r hr]

theorem Complete.descaled (h : Complete T values variances x f) (vars : Series) :
    (descale T (T.names.map fun l => (l, some (x l / f l))) vars).1 = T.names.map fun l => (l, some (x l)) := by
  simp only [descale, List.map_map]
  apply List.map_congr_left
  intro l hl
  obtain ⟨r, hr, rfl⟩ := Complete.mem hl
  have hf := h.factorOf hl
  simp only [Function.comp, divisor, Series.index_map_mk, hl, if_true, hf, Val.mul_some]
  rw [div_mul_cancel₀ _ (h.nonzero r hr)]

theorem select_of_subset {labels sub : List String} (y : String → ℝ) (hs : ∀ l ∈ sub, l ∈ labels) (g : String → Val)
    (hg : ∀ l ∈ labels, g l = some (y l)) :
    Series.select (labels.map fun l => (l, g l)) sub = .ok (sub.map fun l => (l, some (y l))) := by
  unfold Series.select
  rw [if_neg]
  · congr 1
    apply List.map_congr_left
    intro l hl
    rw [Series.val_map_mk, if_pos (hs l hl), hg l (hs l hl)]
  · rintro ⟨hne, hall⟩
    obtain ⟨l, hl⟩ := List.exists_mem_of_ne_nil _ hne
    have := List.all_eq_true.1 hall l hl
    rw [Series.lookup_map_mk, if_pos (hs l hl)] at this
    simp at this

theorem select_of_subset' {labels sub : List String} (hs : ∀ l ∈ sub, l ∈ labels) (g : String → Val) :
    Series.select (labels.map fun l => (l, g l)) sub = .ok (sub.map fun l => (l, g l)) := by
  unfold Series.select
  rw [if_neg]
  · congr 1
    apply List.map_congr_left
    intro l hl
    rw [Series.val_map_mk, if_pos (hs l hl)]
  · rintro ⟨hne, hall⟩
    obtain ⟨l, hl⟩ := List.exists_mem_of_ne_nil _ hne
    have := List.all_eq_true.1 hall l hl
    rw [Series.lookup_map_mk, if_pos (hs l hl)] at this
    simp at this

end

/-- The gates to which the parameters are forwarded are gates of the solver. -/
def KnownGates (f : Forwarding) : Prop :=
  ∀ l ∈ f.target.names, ∀ g, (f.mapping.lookup l).join = some g → g ∈ f.next.index

/-- One call of `is_tuned` with complete results, for any solver that accepts them: the answer is that of the comparison with what the solver has
left in the Series. -/
theorem answer {S ι : Type} (I : SolverI S ι) (left : Series → Series → S → Series) (outs : List Outcome) (v : Volt ι) (t : SubsetTuner S ι)
    {values variances : Series} {x f y : String → ℝ} (hc : collect outs = .ok (values, variances))
    (h : Complete (I.target t.solver) values variances x f) (hq : t.queued = 0)
    (hl : ∀ l ∈ t.lastValues.index, l ∈ (I.target t.solver).names)
    (hu : ∀ vars, (I.update v ((I.target t.solver).names.map fun l => (l, some (x l / f l))) vars t.solver).2 = .ok ())
    (hleft : ∀ vars, left ((I.target t.solver).names.map fun l => (l, some (x l / f l))) vars t.solver =
      (I.target t.solver).names.map fun l => (l, some (y l))) :
    ((isTunedInPlace I left outs v t).2 = .ok true ↔ Agrees (I.target t.solver) y) ∧
      ((isTunedInPlace I left outs v t).2 = .ok true ∨ (isTunedInPlace I left outs v t).2 = .ok false) ∧
      (isTunedInPlace I left outs v t).1.lastValues = t.lastValues.index.map fun l => (l, some (x l / f l)) := by
  have hvar : rescaleVariances (I.target t.solver) ((I.target t.solver).names.map fun l => (l, variances.val l)) =
      (I.target t.solver).names.map fun l => (l, Val.div (variances.val l)
        (Val.mul (Tuner.factor (I.target t.solver) l) (Tuner.factor (I.target t.solver) l))) := by
    simp [rescaleVariances, Function.comp_def]
  have hany : (t.lastValues.index.map fun l => (l, some (x l / f l))).any (fun e => e.2.isNone) = false := by
    simp
  have hgo : Agrees (I.target t.solver) y ↔ ∀ r ∈ I.target t.solver, WithinTolerance r
      (Series.val ((I.target t.solver).names.map fun l => (l, some (y l))) r.name) := by
    refine forall₂_congr fun r hr => ?_
    have hm : r.name ∈ (I.target t.solver).names := List.mem_map_of_mem hr
    rw [Series.val_map_mk, if_pos hm, withinTolerance_iff]
  unfold isTunedInPlace
  simp only [hq, ne_eq, not_true_eq_false, if_false]
  rw [h.evaluate hc]
  simp only [h.rescaled]
  rw [select_of_subset (fun l => x l / f l) hl _ (fun l _ => rfl)]
  simp only
  rw [hvar, Series.index_map_mk, select_of_subset' hl]
  simp only [hany, Bool.false_eq_true, if_false]
  have hu' := hu ((I.target t.solver).names.map fun l => (l, Val.div (variances.val l)
        (Val.mul (Tuner.factor (I.target t.solver) l) (Tuner.factor (I.target t.solver) l))))
  rcases hup : I.update v ((I.target t.solver).names.map fun l => (l, some (x l / f l))) ((I.target t.solver).names.map fun l =>
    (l, Val.div (variances.val l) (Val.mul (Tuner.factor (I.target t.solver) l) (Tuner.factor (I.target t.solver) l)))) t.solver with ⟨s, r⟩
  rw [hup] at hu'
  simp only at hu'
  subst hu'
  simp only
  rw [hgo]
  split
  · rename_i hw; rw [h.rescaled, hleft] at hw; exact ⟨⟨fun _ => hw, fun _ => rfl⟩, .inl rfl, rfl⟩
  · rename_i hw; rw [h.rescaled, hleft] at hw; exact ⟨⟨fun h => by simp at h, fun h => absurd h hw⟩, .inr rfl, rfl⟩

/-- **C182** for solvers that leave the Series alone: `is_tuned` is the function of C15 and C16, and it judges the measured values in units of the
target, the same values that it records. -/
theorem judged_in_target_units_partial {S ι : Type} (I : SolverI S ι) (outs : List Outcome) (v : Volt ι) (t : SubsetTuner S ι)
    {values variances : Series} {x f : String → ℝ} (hc : collect outs = .ok (values, variances))
    (h : Complete (I.target t.solver) values variances x f) (hq : t.queued = 0)
    (hl : ∀ l ∈ t.lastValues.index, l ∈ (I.target t.solver).names)
    (hu : ∀ vars, (I.update v ((I.target t.solver).names.map fun l => (l, some (x l / f l))) vars t.solver).2 = .ok ()) :
    isTunedInPlace I leftByNewton outs v t = isTuned I outs v t ∧
      ((isTuned I outs v t).2 = .ok true ↔ Agrees (I.target t.solver) fun l => x l / f l) ∧
      (isTuned I outs v t).1.lastValues = t.lastValues.index.map fun l => (l, some (x l / f l)) := by
  have e : isTunedInPlace I leftByNewton outs v t = isTuned I outs v t := rfl
  obtain ⟨h1, -, h2⟩ := answer I leftByNewton outs v t (y := fun l => x l / f l) hc h hq hl hu fun _ => rfl
  exact ⟨e, by rw [← e]; exact h1, by rw [← e]; exact h2⟩

theorem forwarding_update_ok {n : Nat} (gate : Fin n → String) (v : Volt (Fin n)) (s : Forwarding) (hk : KnownGates s) (g : String → Val)
    (vars : Series) : ((EndToEnd.forwarding gate).update v (s.target.names.map fun l => (l, g l)) vars s).2 = .ok () := by
  simp only [EndToEnd.forwarding, Forwarding.update]
  rw [if_pos]
  rw [List.all_eq_true]
  intro e he
  simp only [Forwarding.pairs, descale, List.map_map, Series.index, List.mem_filterMap] at he
  obtain ⟨l, hl, he⟩ := he
  simp only [Function.comp_def, List.map_id'] at hl
  cases hm : (s.mapping.lookup l).join with
  | none => simp [hm] at he
  | some g' =>
    simp [hm] at he
    subst he
    have := hk l hl g' hm
    simpa [overwrite, Series.index] using this

/-- **C182** fails for `ForwardingSolver`: a `SubsetTuner` with this solver judges the values as they were measured, not in units of the target.  It
answers `True` exactly if the measured numbers, without the factors, are within the tolerances around the set points, while the values it records
and shows are those in units of the target. -/
theorem judged_in_target_units_refuted {n : Nat} (gate : Fin n → String) (outs : List Outcome) (v : Volt (Fin n))
    (t : SubsetTuner Forwarding (Fin n)) {values variances : Series} {x f : String → ℝ}
    (hc : collect outs = .ok (values, variances)) (h : Complete t.solver.target values variances x f) (hq : t.queued = 0)
    (hl : ∀ l ∈ t.lastValues.index, l ∈ t.solver.target.names) (hk : KnownGates t.solver) :
    ((isTunedInPlace (EndToEnd.forwarding gate) leftByForwarding outs v t).2 = .ok true ↔ Agrees t.solver.target x) ∧
      ((isTunedInPlace (EndToEnd.forwarding gate) leftByForwarding outs v t).2 = .ok true ∨
        (isTunedInPlace (EndToEnd.forwarding gate) leftByForwarding outs v t).2 = .ok false) ∧
      (isTunedInPlace (EndToEnd.forwarding gate) leftByForwarding outs v t).1.lastValues =
        t.lastValues.index.map fun l => (l, some (x l / f l)) :=
  answer (EndToEnd.forwarding gate) leftByForwarding outs v t hc h hq hl
    (fun vars => forwarding_update_ok gate v t.solver hk _ vars) fun vars => h.descaled vars

/-- The two judgements agree if all factors are 1. -/
theorem forwarding_unit_factors {T : Target} {x f : String → ℝ} (h : ∀ r ∈ T, f r.name = 1) :
    Agrees T x ↔ Agrees T fun l => x l / f l := by
  refine forall₂_congr fun r hr => ?_
  simp [h r hr]

/-- A parameter in nanoseconds with a set point in microseconds: set point 2, tolerance 0.5, factor 1000. -/
noncomputable def scaledTarget : Target := [⟨"t", some 2, none, none, some (1 / 2), none, some 1000⟩]

/-- A tuner that forwards the parameter to a gate. -/
noncomputable def scaledTuner : SubsetTuner Forwarding (Fin 1) :=
  ⟨⟨scaledTarget, [("t", some "N")], [("N", some 0)], [("N", some 0)]⟩, [], fun _ => some 0, [("t", none)], [("t", none)], false, [], none, 1, 0⟩

/-- 2000 ns are the set point, but the tuner says that the dot is not tuned; 2 ns are far away, but the tuner says that it is. -/
example : (∀ x : ℝ, ((isTunedInPlace (EndToEnd.forwarding fun _ => "N") leftByForwarding [.ok ([("t", some x)], [("t", some 1)])] (fun _ => some 0)
      scaledTuner).2 = .ok true ↔ |2 - x| < 1 / 2)) ∧ ¬ |(2 : ℝ) - 2000| < 1 / 2 ∧ |(2 : ℝ) - 2| < 1 / 2 ∧ |(2 : ℝ) - 2000 / 1000| < 1 / 2 := by
  refine ⟨fun x => ?_, by norm_num, by norm_num, by norm_num⟩
  have := (judged_in_target_units_refuted (fun _ => "N") [.ok ([("t", some x)], [("t", some 1)])] (fun _ => some 0) scaledTuner
    (values := [("t", some x)]) (variances := [("t", some 1)]) (x := fun _ => x) (f := fun _ => 1000) rfl
    ⟨by simp [scaledTuner, scaledTarget], by simp [scaledTuner, scaledTarget, Target.names],
      by simp [scaledTuner, scaledTarget], by simp [scaledTuner, scaledTarget], by simp [scaledTuner, scaledTarget],
      by simp⟩ rfl (by simp [scaledTuner, scaledTarget, Series.index, Target.names])
    (by intro l hl g hg; simp [scaledTuner, scaledTarget, Target.names] at hl; subst hl; simp [scaledTuner] at hg; subst hg
        simp [scaledTuner, Series.index])).1
  rw [this]
  simp [Agrees, scaledTuner, scaledTarget]

end Qtune.Tuner
