import Verif.Naming.Model
import Verif.Target.Props

/-! # Names and restarts: properties C09, C10, C11, C50 -/

namespace Qtune.Naming

open Qtune.Autotuner (Hierarchy State Event iterate)

/-! ## C10 -/

/-- The parameter `l` has a row in `T` that is filled in every column which `T` uses at all. -/
def CompletelySpecified (T : Target) (l : String) : Prop :=
  ∃ r ∈ T, r.name = l ∧ ∀ c ∈ Target.columns, (∃ r' ∈ T, c r' ≠ none) → c r ≠ none

theorem mem_relevant (T : Target) (l : String) : l ∈ T.relevant ↔ CompletelySpecified T l := by
  unfold Target.relevant CompletelySpecified Target.names
  simp only [List.mem_map, List.mem_filter]
  constructor
  · rintro ⟨r, ⟨hr, hall⟩, rfl⟩
    refine ⟨r, hr, rfl, ?_⟩
    rintro c hc ⟨r', hr', hne⟩
    have := (List.all_eq_true.1 hall) c hc
    rcases Bool.or_eq_true_iff.1 this with h | h
    · exact absurd (Option.isNone_iff_eq_none.1 ((List.all_eq_true.1 h) r' hr')) hne
    · exact Option.isSome_iff_ne_none.1 h
  · rintro ⟨r, hr, rfl, h⟩
    refine ⟨r, ⟨hr, ?_⟩, rfl⟩
    rw [List.all_eq_true]
    intro c hc
    by_cases hex : ∃ r' ∈ T, c r' ≠ none
    · rw [Bool.or_eq_true_iff]
      exact Or.inr (Option.isSome_iff_ne_none.2 (h c hc hex))
    · rw [Bool.or_eq_true_iff, List.all_eq_true]
      left
      intro r' hr'
      rw [Option.isNone_iff_eq_none]
      by_contra hne
      exact hex ⟨r', hr', hne⟩

theorem mem_tunedParameters (Ts : List Target) (n : Nat) (l : String) :
    l ∈ tunedParameters Ts n ↔ ∃ j, ∃ hj : j < Ts.length, j < n ∧ CompletelySpecified Ts[j] l := by
  have hfold : ∀ (L : List Target) (acc : List String),
      l ∈ L.foldl (fun acc T => acc ++ T.relevant) acc ↔ l ∈ acc ∨ ∃ T ∈ L, l ∈ T.relevant := by
    intro L
    induction L with
    | nil => simp
    | cons T L ih => intro acc; rw [List.foldl_cons, ih]; simp [or_assoc]
  unfold tunedParameters
  rw [hfold]
  simp only [List.not_mem_nil, false_or]
  constructor
  · rintro ⟨T, hT, hl⟩
    obtain ⟨j, hj, rfl⟩ := List.mem_iff_getElem.1 hT
    have hj' := hj
    rw [List.length_take] at hj'
    refine ⟨j, by omega, by omega, ?_⟩
    rw [List.getElem_take] at hl
    exact (mem_relevant _ _).1 hl
  · rintro ⟨j, hj, hjn, h⟩
    refine ⟨Ts[j], ?_, (mem_relevant _ _).2 h⟩
    rw [List.mem_iff_getElem]
    exact ⟨j, by rw [List.length_take]; omega, by rw [List.getElem_take]⟩

/-- **C10.** In an autotuner whose tuners have the targets `targets w`, every call
`get_next_voltages` of tuner `i` made by `iterate` gets exactly the parameters of the tuners
below `i` that are completely specified. -/
theorem tuned_parameters_passed {W X V C : Type} (H : Hierarchy W X V (List String) C)
    (targets : W → List Target)
    (hH : ∀ w i, H.tunedParams w i = tunedParameters (targets w) i)
    (save : Except PyErr Unit) (s : State W X V) (i : Nat) (p : List String) (r : Except PyErr V)
    (hev : Event.suggested i p r ∈ (iterate H save s).2.1) (l : String) :
    l ∈ p ↔ ∃ j, ∃ hj : j < (targets s.tuners).length, j < i ∧
      CompletelySpecified (targets s.tuners)[j] l := by
  have hp : p = H.tunedParams s.tuners i := by
    have hfin : ∀ (s' : State W X V) (e : Event W V (List String)),
        Event.suggested i p r ∈ (Autotuner.finish save s' e).2.1 → Event.suggested i p r = e := by
      intro s' e h
      unfold Autotuner.finish at h
      cases save <;> simpa using h
    revert hev
    fun_cases iterate H save s <;> intro hev
    all_goals first
      | (exfalso; simp at hev; done)
      | (cases hfin _ _ hev; done)
      | (cases hfin _ _ hev; rfl)
      | (have hev := List.mem_singleton.1 hev; cases hev; rfl)
  rw [hp, hH, mem_tunedParameters]

/-- Two tuners; the parameter without tolerance is not passed on. -/
example : "a" ∈ tunedParameters
      [[⟨"a", some 0, none, none, some 1, none, some 1⟩,
        ⟨"b", some 0, none, none, none, none, some 1⟩], []] 1 ∧
    "b" ∉ tunedParameters
      [[⟨"a", some 0, none, none, some 1, none, some 1⟩,
        ⟨"b", some 0, none, none, none, none, some 1⟩], []] 1 := by
  constructor <;> simp [tunedParameters, Target.relevant, Target.names, Target.columns]

/-! ## C11 -/

/-- Coherent naming of one tuner: all gate names are known to the experiment, and a
`SubsetTuner` with `NewtonSolver` tunes only gates that each gradient estimator covers. -/
structure Coherent (gates : List String) (t : TunerNames) : Prop where
  last : ∀ l, t.lastVoltages = some l → ∀ g ∈ l, g ∈ gates
  solver : ∀ p, t.solverPosition = some p → ∀ g ∈ p, g ∈ gates
  estimators : ∀ es, t.estimators = some es → ∀ p, some p ∈ es → ∀ g ∈ p, g ∈ gates
  tunable : ∀ es u, t.estimators = some es → t.tunable = some u →
    ∀ p, some p ∈ es → ∀ g ∈ u, g ∈ p

/-- All positions exist, as the constructors of the solvers demand. -/
structure Initialised (t : TunerNames) : Prop where
  solver : t.solverPosition ≠ none
  estimators : ∀ es, t.estimators = some es → t.tunable ≠ none → none ∉ es

theorem subset_iff (a b : List String) : subset a b = true ↔ ∀ g ∈ a, g ∈ b := by
  simp [subset]

theorem checkEstimators_spec (gates : List String) (u : Option (List String))
    (es : List (Option (List String))) (hinit : u ≠ none → none ∉ es) :
    ∃ b, checkEstimators gates u es = .ok b ∧ (b = true ↔
      (∀ p, some p ∈ es → ∀ g ∈ p, g ∈ gates) ∧
      (∀ w, u = some w → ∀ p, some p ∈ es → ∀ g ∈ w, g ∈ p)) := by
  induction es with
  | nil => exact ⟨true, rfl, by simp⟩
  | cons e es ih =>
    obtain ⟨b, hb, hiff⟩ := ih (fun hu h => hinit hu (List.mem_cons_of_mem _ h))
    unfold checkEstimators
    rw [hb]
    cases u with
    | none =>
      cases e with
      | none =>
        refine ⟨_, rfl, ?_⟩
        simp only [Bool.true_and, hiff]
        simp
      | some pos =>
        refine ⟨_, rfl, ?_⟩
        simp only [Bool.and_eq_true, hiff, subset_iff]
        simp [or_imp, forall_and]
    | some w =>
      cases e with
      | none => exact absurd (List.mem_cons_self) (hinit (by simp))
      | some pos =>
        refine ⟨_, rfl, ?_⟩
        simp only [Bool.and_eq_true, hiff, subset_iff]
        simp only [List.mem_cons, Option.some.injEq, or_imp, forall_and, forall_eq,
          forall_eq']
        tauto

theorem checkTuner_spec (gates : List String) (t : TunerNames) (hinit : Initialised t) :
    ∃ b, checkTuner gates t = .ok b ∧ (b = true ↔ Coherent gates t) := by
  obtain ⟨last, sp, es, u⟩ := t
  cases sp with
  | none => exact absurd rfl hinit.solver
  | some p =>
    have hb₁ : lastKnown gates last = true ↔ ∀ l, last = some l → ∀ g ∈ l, g ∈ gates := by
      cases last with
      | none => simp [lastKnown]
      | some l => simp [lastKnown, subset_iff]
    cases es with
    | none =>
      refine ⟨_, rfl, ?_⟩
      rw [Bool.and_eq_true, hb₁, subset_iff]
      constructor
      · rintro ⟨h1, h2⟩
        exact ⟨h1, fun p' hp' => by cases hp'; exact h2, fun _ h => (by cases h), fun _ _ h => (by cases h)⟩
      · intro h
        exact ⟨h.last, h.solver p rfl⟩
    | some es =>
      obtain ⟨b, hb, hiff⟩ := checkEstimators_spec gates u es (hinit.estimators es rfl)
      unfold checkTuner
      simp only [hb]
      refine ⟨_, rfl, ?_⟩
      rw [Bool.and_eq_true, Bool.and_eq_true, hb₁, subset_iff, hiff]
      constructor
      · rintro ⟨⟨h1, h2⟩, h3, h4⟩
        refine ⟨h1, fun p' hp' => by cases hp'; exact h2, ?_, ?_⟩
        · intro _ he; cases he; exact h3
        · intro _ w he hw; cases he; exact h4 w hw
      · intro h
        exact ⟨⟨h.last, h.solver p rfl⟩, h.estimators es rfl, fun w hw => h.tunable es w rfl hw⟩

/-- **C11.** With initialised positions `ready_to_tune` returns `True` if the naming is coherent
and `False` if it is not. -/
theorem ready_iff_coherent (gates : List String) (pending : Option (List String))
    (ts : List TunerNames) (hinit : ∀ t ∈ ts, Initialised t)
    (hpend : ∀ p, pending = some p → ∀ g ∈ p, g ∈ gates) :
    ∃ b, readyToTune gates pending ts = .ok b ∧ (b = true ↔ ∀ t ∈ ts, Coherent gates t) := by
  have hcheck : ∃ b, checkTuners gates ts = .ok b ∧ (b = true ↔ ∀ t ∈ ts, Coherent gates t) := by
    induction ts with
    | nil => exact ⟨true, rfl, by simp⟩
    | cons t ts ih =>
      obtain ⟨b, hb, hiff⟩ := ih (fun t ht => hinit t (List.mem_cons_of_mem _ ht))
      obtain ⟨b', hb', hiff'⟩ := checkTuner_spec gates t (hinit t List.mem_cons_self)
      refine ⟨b' && b, by simp [checkTuners, hb, hb'], ?_⟩
      rw [Bool.and_eq_true, hiff, hiff']
      simp
  cases pending with
  | none => exact hcheck
  | some p =>
    unfold readyToTune
    simp only [(subset_iff p gates).2 (hpend p rfl), if_true]
    exact hcheck

/-- **C11, pending voltages.** Pending voltages with an unknown gate raise `AssertionError`. -/
theorem pending_unknown_gate (gates p : List String) (ts : List TunerNames) (g : String)
    (hg : g ∈ p) (hunknown : g ∉ gates) :
    readyToTune gates (some p) ts = .error .assertionError := by
  have : subset p gates ≠ true := fun h => hunknown ((subset_iff _ _).1 h g hg)
  simp [readyToTune, this]

/-- A coherent tuner, and one whose estimator lacks a tunable gate. -/
example : Coherent ["x", "y"] ⟨some ["x", "y"], some ["x"], some [some ["x"]], some ["x"]⟩ ∧
    ¬ Coherent ["x", "y"] ⟨some ["x", "y"], some ["x"], some [some ["x"]], some ["y"]⟩ ∧
    Initialised ⟨some ["x", "y"], some ["x"], some [some ["x"]], some ["y"]⟩ := by
  refine ⟨⟨?_, ?_, ?_, ?_⟩, ?_, ⟨by simp, by simp⟩⟩
  · simp
  · simp
  · simp
  · simp
  · intro h
    have := h.tunable _ ["y"] rfl rfl ["x"] (by simp) "y" (by simp)
    simp at this

/-! ## C09 and C50 -/

/-- `s` agrees with `new` on every gate that both mention. -/
def AgreesOnCommon (s new : Series) : Prop :=
  ∀ g ∈ s.index, g ∈ new.index → s.val g = new.val g

theorem intersection_values (a b : Series) :
    names (intersection (indexLabels a) (valueLabels b)) = [] := by
  have : intersection (indexLabels a) (valueLabels b) = [] := by
    unfold intersection
    rw [List.filter_eq_nil_iff]
    intro x hx
    obtain ⟨e, _, rfl⟩ := List.mem_map.1 hx
    simp [valueLabels]
  rw [this]; rfl

theorem copyLabels_nil (a b : Series) : copyLabels a b [] = a := by
  unfold copyLabels
  simp

theorem mem_names (L : List Label) (s : String) : s ∈ names L ↔ Label.name s ∈ L := by
  induction L with
  | nil => simp [names]
  | cons x t ih => cases x <;> simp [names, ih]

theorem mem_indexLabels (s : Series) (g : String) : Label.name g ∈ indexLabels s ↔ g ∈ s.index := by
  simp [indexLabels, Series.index]

theorem copyLabels_index (a b : Series) (L : List String) :
    Series.index (copyLabels a b L) = a.index := by
  unfold copyLabels Series.index
  rw [List.map_map]
  refine List.map_congr_left fun e _ => ?_
  simp only [Function.comp]
  split <;> rfl

theorem copyLabels_val (a b : Series) (L : List String) (g : String) (hg : g ∈ a.index) :
    Series.val (copyLabels a b L) g = if g ∈ L then b.val g else a.val g := by
  have : copyLabels a b L = a.map fun e => (e.1, if e.1 ∈ L then b.val e.1 else e.2) := by
    unfold copyLabels
    refine List.map_congr_left fun e _ => ?_
    by_cases h : e.1 ∈ L <;> simp [h]
  rw [this, TargetOps.val_map_entry (fun l x => if l ∈ L then b.val l else x) hg]

/-- **C09 refuted for every tuner that has voltages.** `restart` does not change them, whatever
the experiment reads now. -/
theorem restart_voltages_refuted (t : TunerPos) (last new : Series)
    (hlast : t.lastVoltages = some last) (hne : last ≠ []) :
    (restartTuner t new).lastVoltages = some last := by
  unfold restartTuner
  simp only [hlast]
  cases last with
  | nil => exact absurd rfl hne
  | cons e rest =>
    simp only [setLastVoltages, intersection_values, copyLabels_nil]

/-- Hence the claim of C09 holds for such a tuner only if it held before the restart. -/
theorem restart_voltages_agree_iff (t : TunerPos) (last new : Series)
    (hlast : t.lastVoltages = some last) (hne : last ≠ []) :
    (∃ l, (restartTuner t new).lastVoltages = some l ∧ AgreesOnCommon l new) ↔
      AgreesOnCommon last new := by
  rw [restart_voltages_refuted t last new hlast hne]
  simp

/-- **C09, provable part.** A tuner without voltages gets the new ones, and the position of the
solver of each tuner agrees with the new voltages on the common gates after a restart and
keeps its other gates. Missing: tuners that have voltages, `restart_voltages_refuted`. -/
theorem restart_communicates_partial (ts : List TunerPos) (new : Series) :
    List.Forall₂ (fun t t' : TunerPos =>
      ((t.lastVoltages = none ∨ t.lastVoltages = some []) → t'.lastVoltages = some new) ∧
      AgreesOnCommon t'.solverPos new ∧ t'.solverPos.index = t.solverPos.index ∧
      (∀ g ∈ t.solverPos.index, g ∉ new.index → t'.solverPos.val g = t.solverPos.val g))
      ts (restartAll ts new) := by
  unfold restartAll
  rw [List.forall₂_map_right_iff, List.forall₂_same]
  intro t _
  have hval : ∀ g ∈ t.solverPos.index, (restartTuner t new).solverPos.val g =
      if g ∈ new.index then new.val g else t.solverPos.val g := by
    intro g hg
    show Series.val (setSolverPosition t.solverPos new) g = _
    unfold setSolverPosition
    rw [copyLabels_val _ _ _ _ hg]
    refine if_congr ?_ rfl rfl
    rw [mem_names, intersection]
    simp [mem_indexLabels, hg]
  have hidx : (restartTuner t new).solverPos.index = t.solverPos.index :=
    copyLabels_index _ _ _
  refine ⟨?_, ?_, hidx, ?_⟩
  · rintro (h | h) <;> simp [restartTuner, h, setLastVoltages]
  · intro g hg hg'
    rw [hidx] at hg
    rw [hval g hg, if_pos hg']
  · intro g hg hg'
    rw [hval g hg, if_neg hg']

/-- **C50 refuted for every estimator.** `NewtonSolver.restart` never changes the position of
any gradient estimator. -/
theorem restart_estimators_refuted (t : TunerPos) (new : Series) :
    (restartTuner t new).estimatorPos = t.estimatorPos := by
  unfold restartTuner setEstimatorPosition
  simp [intersection_values, copyLabels_nil]

/-- Witness for both: after a manual change of gate `x` from 0 to 1 and a restart, the tuner and
the estimator still hold 0, while the solver holds 1. -/
example :
    let t : TunerPos := ⟨some [("x", some 0)], [("x", some 0)], [[("x", some 0)]]⟩
    let t' := restartTuner t [("x", some 1)]
    t'.lastVoltages = some [("x", some 0)] ∧ t'.estimatorPos = [[("x", some 0)]] ∧
      t'.solverPos.val "x" = some 1 ∧ ¬ AgreesOnCommon [("x", some 0)] [("x", some 1)] := by
  refine ⟨restart_voltages_refuted _ _ _ rfl (by simp), restart_estimators_refuted _ _, ?_, ?_⟩
  · have h := restart_communicates_partial
      [⟨some [("x", some 0)], [("x", some 0)], [[("x", some 0)]]⟩] [("x", some 1)]
    rcases h with _ | ⟨h, _⟩
    have hx : "x" ∈ (restartTuner ⟨some [("x", some 0)], [("x", some 0)], [[("x", some 0)]]⟩
        [("x", some 1)]).solverPos.index := by rw [h.2.2.1]; simp [Series.index]
    have := h.2.1 "x" hx (by simp [Series.index])
    rw [this]
    simp [Series.val, List.lookup]
  · intro h
    have := h "x" (by simp [Series.index]) (by simp [Series.index])
    simp [Series.val, List.lookup] at this

end Qtune.Naming
