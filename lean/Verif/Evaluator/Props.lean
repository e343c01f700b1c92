import Verif.Evaluator.Lemmas
import Verif.Signal.Props
import Mathlib.Algebra.Order.BigOperators.Group.List

/-!
# Properties of LeadTransition and AveragingEvaluator (C66, C69, C90, C91)
-/

namespace Qtune.Evaluator

/-! ## LeadTransition -/

/-- C66 (partial): if no measurement raises, `LeadTransition.evaluate` leaves the voltages as it found them - also if
the evaluation of the data fails - and it makes one measurement per pair of a measurement and a shifting gate, at
voltages where exactly this gate is displaced by `-charge_diagram_width`.  If a measurement raises, the exception is
passed on.  Missing: the voltages after the failure of a measurement, see `lead_transition_refuted`. -/
theorem lead_transition_partial (ev : LeadTransition) (outcome : Nat → Except PyErr (List ℝ)) (s : World) :
    (NoFailure ev outcome s →
      (ev.evaluate outcome s).1.volts = s.volts ∧
      ∃ new, (ev.evaluate outcome s).1.log = s.log ++ new ∧
        new.length = min ev.measurements.length ev.shifting.length ∧
        ∀ (k : Nat) (m : Scan) (v : String → ℝ), new[k]? = some (m, v) → ev.measurements[k]? = some m ∧
          ∃ g, ev.shifting[k]? = some g ∧ DisplacedBy s.volts v g ev.width) ∧
    (∀ k e, k < min ev.measurements.length ev.shifting.length →
      (∀ j < k, ∃ d, outcome (s.log.length + j) = .ok d) → outcome (s.log.length + k) = .error e →
      (ev.evaluate outcome s).2 = .error e ∧
      ∃ g, ev.shifting[k]? = some g ∧ DisplacedBy s.volts (ev.evaluate outcome s).1.volts g ev.width) := by
  constructor
  · intro hok
    obtain ⟨h1, h2, ds, h3, h4, h5⟩ := scanLoop_ok ev.width outcome s.volts (ev.measurements.zip ev.shifting) s rfl
      (by intro k hk; rw [List.length_zip] at hk; exact hok k hk)
    have hw : (ev.evaluate outcome s).1.volts = s.volts ∧ (ev.evaluate outcome s).1.log =
        (scanLoop ev.width outcome s.volts (ev.measurements.zip ev.shifting) s).1.log := by
      unfold LeadTransition.evaluate
      dsimp only
      revert h1 h3
      cases scanLoop ev.width outcome s.volts (ev.measurements.zip ev.shifting) s with
      | mk a b =>
        intro h1 h3
        simp only at h1 h3
        subst h3
        dsimp only
        split
        · exact ⟨h1, rfl⟩
        · exact ⟨rfl, rfl⟩
    refine ⟨hw.1, _, by rw [hw.2, h2], by simp, ?_⟩
    intro k m v hk
    rw [List.getElem?_map, Option.map_eq_some_iff] at hk
    obtain ⟨⟨m', g⟩, hz, he⟩ := hk
    rw [List.getElem?_zip_eq_some] at hz
    cases he
    exact ⟨hz.1, g, hz.2, displaced_displacedBy _ _ _⟩
  · intro k e hk hok he
    have hz : ∃ m g, (ev.measurements.zip ev.shifting)[k]? = some (m, g) := by
      have : k < (ev.measurements.zip ev.shifting).length := by rw [List.length_zip]; exact hk
      exact ⟨_, _, List.getElem?_eq_getElem this⟩
    obtain ⟨m, g, hz⟩ := hz
    obtain ⟨h1, h2⟩ := scanLoop_error ev.width outcome s.volts _ s k e m g hz hok he
    have hev : ev.evaluate outcome s =
        ((scanLoop ev.width outcome s.volts (ev.measurements.zip ev.shifting) s).1, .error e) := by
      unfold LeadTransition.evaluate
      dsimp only
      revert h2
      cases scanLoop ev.width outcome s.volts (ev.measurements.zip ev.shifting) s with
      | mk a b => intro h2; simp only at h2; subst h2; rfl
    rw [hev]
    refine ⟨rfl, g, ((List.getElem?_zip_eq_some).mp hz).2, ?_⟩
    dsimp only
    rw [h1]
    exact displaced_displacedBy _ _ _

/-- The default configuration. -/
noncomputable def exLead : LeadTransition := ⟨["RFB", "RFA"], 4e-3, defaultScans ["RFA", "RFB"]⟩

/-- The hypothesis is met, with two measurements. -/
example : NoFailure exLead (fun _ => .ok [0, 0, 1, 1]) ⟨fun _ => 0, []⟩ ∧
    min exLead.measurements.length exLead.shifting.length = 2 := by
  constructor
  · intro k _; exact ⟨_, rfl⟩
  · simp [exLead, defaultScans]

/-- C66 is false: if a measurement raises, a gate stays displaced. -/
theorem lead_transition_refuted : ¬ ∀ (ev : LeadTransition) (outcome : Nat → Except PyErr (List ℝ)) (s : World),
    (ev.evaluate outcome s).1.volts = s.volts := by
  intro h
  obtain ⟨h1, g, hg, h2, _⟩ := (lead_transition_partial exLead (fun _ => .error .valueError) ⟨fun _ => 0, []⟩).2 0
    .valueError (by simp [exLead, defaultScans]) (by simp) rfl
  rw [h] at h2
  norm_num [exLead] at h2

theorem linspace_mem {m : Scan} (hr : 0 ≤ m.range) {i : Nat} (hi : i < m.nPoints) :
    m.center - m.range ≤ linspace m i ∧ linspace m i ≤ m.center + m.range := by
  unfold linspace
  by_cases h1 : m.nPoints = 1
  · have : i = 0 := by omega
    subst this
    constructor <;> simp <;> linarith
  · have hn : (0 : ℝ) < (m.nPoints : ℝ) - 1 := by
      have : 2 ≤ m.nPoints := by omega
      have : (2 : ℝ) ≤ m.nPoints := by exact_mod_cast this
      linarith
    have hi' : (i : ℝ) ≤ m.nPoints - 1 := by
      have : i + 1 ≤ m.nPoints := hi
      have : (i : ℝ) + 1 ≤ m.nPoints := by exact_mod_cast this
      linarith
    have hi0 : (0 : ℝ) ≤ i := Nat.cast_nonneg i
    have hq : 0 ≤ 2 * m.range / (m.nPoints - 1) := by positivity
    constructor
    · nlinarith [mul_nonneg hi0 hq]
    · have : (i : ℝ) * (2 * m.range / (m.nPoints - 1)) ≤ (m.nPoints - 1) * (2 * m.range / (m.nPoints - 1)) :=
        mul_le_mul_of_nonneg_right hi' hq
      rw [mul_div_cancel₀ _ (ne_of_gt hn)] at this
      linarith

theorem processRaw_spec {first : Scan} (hr : 0 ≤ first.range) : ∀ {l : List (List ℝ × String)}
    {acc r : List (String × ℝ)}, processRaw first l acc = .ok r →
    ∀ q, (q ∈ l.map (fun p => "position_" ++ p.2) → ∃ x, r.lookup q = some x ∧ first.center - first.range ≤ x ∧
      x ≤ first.center + first.range) ∧
      (q ∉ l.map (fun p => "position_" ++ p.2) → r.lookup q = acc.lookup q)
  | [], acc, r, h, q => by cases h; simp
  | (d, g) :: rest, acc, r, h, q => by
    rw [processRaw] at h
    split at h
    · cases h
    · rename_i i hi
      split at h
      · rename_i hlt
        obtain ⟨h1, h2⟩ := processRaw_spec hr h q
        by_cases hq : q ∈ rest.map (fun p => "position_" ++ p.2)
        · exact ⟨fun _ => h1 hq, fun hc => absurd (by simp only [List.map_cons]; exact List.mem_cons_of_mem _ hq) hc⟩
        · have h2 := h2 hq
          rw [lookup_setItem] at h2
          by_cases hqg : q = "position_" ++ g
          · rw [if_pos hqg] at h2
            exact ⟨fun _ => ⟨_, h2, linspace_mem hr hlt⟩, fun hc => absurd (by simp [hqg]) hc⟩
          · rw [if_neg hqg] at h2
            refine ⟨fun hc => ?_, fun _ => h2⟩
            rw [List.map_cons, List.mem_cons] at hc
            rcases hc with h | h
            · exact absurd h hqg
            · exact absurd h hq
      · cases h

theorem processRaw_ok {first : Scan} : ∀ {l : List (List ℝ × String)} {acc : List (String × ℝ)},
    (∀ p ∈ l, windowPoints first + 2 ≤ p.1.length ∧ p.1.length ≤ first.nPoints) →
    ∃ r, processRaw first l acc = .ok r
  | [], acc, _ => ⟨acc, rfl⟩
  | (d, g) :: rest, acc, h => by
    obtain ⟨h1, h2⟩ := h (d, g) (by simp)
    simp only at h1 h2
    obtain ⟨i, hi⟩ := (Signal.lead_index_ok d (windowPoints first)).1.mpr h1
    have hlt : i < d.length := ((Signal.lead_index_ok d (windowPoints first)).2 i hi).1
    rw [processRaw, hi]
    dsimp only
    rw [if_pos (by omega)]
    exact processRaw_ok fun p hp => h p (by simp [hp])

/-- C90: if no measurement raises and each scan has as many points as the first measurement asks for (and more than a
window), `LeadTransition.evaluate` returns for each shifting gate that has a measurement, and for nothing else, a
position, which is inside the scanned range of the first measurement. -/
theorem lead_transition_positions (ev : LeadTransition) (outcome : Nat → Except PyErr (List ℝ)) (s : World)
    (first : Scan) (rest : List Scan) (hm : ev.measurements = first :: rest) (hr : 0 ≤ first.range)
    (hok : ∀ k < min ev.measurements.length ev.shifting.length, ∃ d, outcome (s.log.length + k) = .ok d ∧
      windowPoints first + 2 ≤ d.length ∧ d.length ≤ first.nPoints) :
    ∃ r, (ev.evaluate outcome s).2 = .ok r ∧
      ∀ q, ((∃ g ∈ ev.shifting.take ev.measurements.length, q = "position_" ++ g) →
          ∃ x, r.lookup q = some x ∧ first.center - first.range ≤ x ∧ x ≤ first.center + first.range) ∧
        ((∀ g ∈ ev.shifting.take ev.measurements.length, q ≠ "position_" ++ g) → r.lookup q = none) := by
  obtain ⟨h1, h2, ds, h3, h4, h5⟩ := scanLoop_ok ev.width outcome s.volts (ev.measurements.zip ev.shifting) s rfl
    (by intro k hk; rw [List.length_zip] at hk; obtain ⟨d, hd, _⟩ := hok k hk; exact ⟨d, hd⟩)
  have hl : ∀ p ∈ ds.zip ev.shifting, windowPoints first + 2 ≤ p.1.length ∧ p.1.length ≤ first.nPoints := by
    rintro ⟨d, g⟩ hp
    obtain ⟨k, hk⟩ := List.mem_iff_getElem?.mp (List.of_mem_zip hp).1
    have hkl : k < (ev.measurements.zip ev.shifting).length := by
      rw [← h4]; exact (List.getElem?_eq_some_iff.mp hk).1
    obtain ⟨d', hd', hb⟩ := hok k (by rw [List.length_zip] at hkl; exact hkl)
    have := h5 k hkl
    rw [hd'] at this
    have hdd : d' = d := by
      cases this
      simp [List.getD_eq_getElem?_getD, hk]
    subst hdd
    exact hb
  obtain ⟨r, hr'⟩ := processRaw_ok (acc := []) hl
  have hev : (ev.evaluate outcome s).2 = .ok r := by
    unfold LeadTransition.evaluate
    dsimp only
    revert h3
    cases scanLoop ev.width outcome s.volts (ev.measurements.zip ev.shifting) s with
    | mk a b =>
      intro h3
      simp only at h3
      subst h3
      rw [hm]
      dsimp only
      rw [hr']
  have hmap : (ds.zip ev.shifting).map (fun p => "position_" ++ p.2) =
      (ev.shifting.take ev.measurements.length).map fun g => "position_" ++ g := by
    have : (ds.zip ev.shifting).map Prod.snd = ev.shifting.take ev.measurements.length := by
      rw [List.length_zip] at h4
      by_cases hle : ev.shifting.length ≤ ev.measurements.length
      · rw [List.map_snd_zip (by omega), List.take_of_length_le hle]
      · have hd : ds.length = ev.measurements.length := by omega
        have hz : ds.zip ev.shifting = ds.zip (ev.shifting.take ds.length) := by
          conv_lhs => rw [List.zip_eq_zip_take_min]
          rw [Nat.min_eq_left (by omega), List.take_length]
        rw [hz, List.map_snd_zip (by simp), hd]
    rw [← this, List.map_map]
    rfl
  refine ⟨r, hev, fun q => ?_⟩
  obtain ⟨ha, hb⟩ := processRaw_spec hr hr' q
  rw [hmap] at ha hb
  constructor
  · rintro ⟨g, hg, rfl⟩
    exact ha (List.mem_map.mpr ⟨g, hg, rfl⟩)
  · intro hne
    exact hb fun hc => by
      obtain ⟨g, hg, he⟩ := List.mem_map.mp hc
      exact hne g hg he.symm

/-- The default configuration with scans of 100 points meets the hypotheses. -/
example : ∃ first rest, exLead.measurements = first :: rest ∧ 0 ≤ first.range ∧
    windowPoints first + 2 ≤ (List.replicate 100 (0 : ℝ)).length ∧ (List.replicate 100 (0 : ℝ)).length ≤ first.nPoints := by
  refine ⟨_, _, rfl, by norm_num, ?_, by simp⟩
  rw [show windowPoints ⟨"RFA", 0, 4e-3, 320⟩ = 16 by unfold windowPoints; norm_num]
  simp

/-- The evaluator `lta_evaluator` of setup_tutorial.ipynb, cell "Lead Transition": it sweeps `RFA`, displaces `RFB`, and
is declared with `parameters=("position_RFA", )`. -/
noncomputable def tutorialLead : LeadTransition := ⟨["RFB"], 4e-3, [⟨"RFA", 0, 4e-3, 320⟩]⟩

theorem windowPoints_default (g : String) : windowPoints ⟨g, 0, 4e-3, 320⟩ = 16 := by
  unfold windowPoints
  norm_num

/-- C91 (partial): if the declared parameters are the names formed from the shifting gates that have a measurement,
`evaluate` returns a value for exactly the declared parameters.  Missing: parameters named after the gates swept, see
`lead_transition_names_refuted`. -/
theorem lead_transition_names_partial (ev : LeadTransition) (parameters : List String)
    (outcome : Nat → Except PyErr (List ℝ)) (s : World)
    (first : Scan) (rest : List Scan) (hm : ev.measurements = first :: rest) (hr : 0 ≤ first.range)
    (hok : ∀ k < min ev.measurements.length ev.shifting.length, ∃ d, outcome (s.log.length + k) = .ok d ∧
      windowPoints first + 2 ≤ d.length ∧ d.length ≤ first.nPoints)
    (hp : parameters = (ev.shifting.take ev.measurements.length).map ("position_" ++ ·)) :
    ∃ r, (ev.evaluate outcome s).2 = .ok r ∧ ∀ q, (r.lookup q).isSome ↔ q ∈ parameters := by
  obtain ⟨r, h1, h2⟩ := lead_transition_positions ev outcome s first rest hm hr hok
  refine ⟨r, h1, fun q => ?_⟩
  rw [hp, List.mem_map]
  constructor
  · intro hs
    by_contra hn
    push Not at hn
    rw [(h2 q).2 (fun g hg => (hn g hg).symm)] at hs
    cases hs
  · rintro ⟨g, hg, rfl⟩
    obtain ⟨x, hx, _⟩ := (h2 ("position_" ++ g)).1 ⟨g, hg, rfl⟩
    simp [hx]

/-- C91 is false: the evaluator of the tutorial, declared with `position_RFA`, returns `position_RFB` only, however the
scan of `RFA` turns out. -/
theorem lead_transition_names_refuted (d : List ℝ) (h1 : 18 ≤ d.length) (h2 : d.length ≤ 320) (v : String → ℝ) :
    ∃ r, (tutorialLead.evaluate (fun _ => .ok d) ⟨v, []⟩).2 = .ok r ∧
      r.lookup "position_RFA" = none ∧ ∃ x, r.lookup "position_RFB" = some x := by
  obtain ⟨r, hr, h⟩ := lead_transition_positions tutorialLead (fun _ => .ok d) ⟨v, []⟩ _ _ rfl (by norm_num)
    (fun k _ => ⟨d, rfl, by rw [windowPoints_default]; omega, h2⟩)
  refine ⟨r, hr, (h _).2 ?_, ?_⟩
  · intro g hg
    simp [tutorialLead] at hg
    subst hg
    decide
  · obtain ⟨x, hx, _⟩ := (h "position_RFB").1 ⟨"RFB", by simp [tutorialLead], by decide⟩
    exact ⟨x, hx⟩

/-! ## AveragingEvaluator -/

theorem mean_bounds {l : List ℝ} (hl : l ≠ []) {lo hi : ℝ} (h : ∀ x ∈ l, lo ≤ x ∧ x ≤ hi) :
    lo ≤ mean l ∧ mean l ≤ hi := Signal.mean_bounds hl h

theorem meanSquare_nonneg (l : List ℝ) : 0 ≤ meanSquare l := by
  unfold meanSquare
  apply div_nonneg
  · apply List.sum_nonneg
    intro x hx
    obtain ⟨y, _, rfl⟩ := List.mem_map.mp hx
    positivity
  · positivity

/-- C69: `AveragingEvaluator.evaluate` fails exactly if a repetition raises or (with at least one repetition) a result
lacks a parameter.  Otherwise it has exactly the parameters; the value of each is the mean of the measured values that
are not NaN, NaN if there is none, and between their bounds; the variance is their mean squared deviation divided by
their number, not negative, and NaN exactly if the value is. -/
theorem averaging (n : Nat) (params : List String) (outcome : Nat → Except PyErr Series) :
    ((∃ e, averagingEvaluate n params outcome = .error e) ↔
      (∃ k < n, ∃ e, outcome k = .error e) ∨ ∃ k < n, ∃ s, outcome k = .ok s ∧ ∃ p ∈ params, s.lookup p = none) ∧
    ∀ a b, averagingEvaluate n params outcome = .ok (a, b) → ∀ p,
      ((a.lookup p).isSome ↔ p ∈ params) ∧ ((b.lookup p).isSome ↔ p ∈ params) ∧
      (p ∈ params → (measured outcome p n = [] → a.val p = none ∧ b.val p = none) ∧
        (measured outcome p n ≠ [] → a.val p = some (mean (measured outcome p n)) ∧
          b.val p = some (meanSquare (measured outcome p n) / (measured outcome p n).length) ∧
          0 ≤ meanSquare (measured outcome p n) / (measured outcome p n).length ∧
          ∀ lo hi, (∀ x ∈ measured outcome p n, lo ≤ x ∧ x ≤ hi) →
            lo ≤ mean (measured outcome p n) ∧ mean (measured outcome p n) ≤ hi)) := by
  constructor
  · unfold averagingEvaluate
    constructor
    · rintro ⟨e, h⟩
      split at h
      · rename_i e' he'
        obtain ⟨k, hk, hk'⟩ := repetitions_error he'
        exact .inl ⟨k, hk, e', hk'⟩
      · rename_i reps hreps
        obtain ⟨_, p, hp, s, hs, hl⟩ := averages_error h
        obtain ⟨h1, h2⟩ := repetitions_ok hreps
        obtain ⟨k, hk⟩ := List.mem_iff_getElem?.mp hs
        have hkn : k < n := by rw [← h1]; exact (List.getElem?_eq_some_iff.mp hk).1
        refine .inr ⟨k, hkn, s, ?_, p, hp, hl⟩
        rw [h2 k hkn, List.getD_eq_getElem?_getD, hk]; rfl
    · intro h
      split
      · exact ⟨_, rfl⟩
      · rename_i reps hreps
        obtain ⟨h1, h2⟩ := repetitions_ok hreps
        rcases h with ⟨k, hk, e, he⟩ | ⟨k, hk, s, hs, p, hp, hl⟩
        · rw [h2 k hk] at he; cases he
        · have hmem : s ∈ reps := by
            have := h2 k hk
            rw [hs] at this
            cases this
            rw [List.getD_eq_getElem _ _ (by omega)]
            exact List.getElem_mem _
          cases ha : averages reps params [] [] with
          | error e => exact ⟨e, rfl⟩
          | ok ab =>
            exfalso
            exact averages_no_missing ha p hp s hmem hl
  · intro a b h p
    unfold averagingEvaluate at h
    split at h
    · cases h
    · rename_i reps hreps
      have hrep := repetitions_ok hreps
      have hmeas := present_map_val reps outcome p n hrep
      obtain ⟨h1, h2⟩ := averages_ok h p
      by_cases hp : p ∈ params
      · obtain ⟨ha, hb⟩ := h1 hp
        refine ⟨by simp [ha, hp], by simp [hb, hp], fun _ => ?_⟩
        have hav : a.val p = nanmean (reps.map fun s => s.val p) := by unfold Series.val; rw [ha]; rfl
        have hbv : b.val p = nanvarOfMean (reps.map fun s => s.val p) := by unfold Series.val; rw [hb]; rfl
        rw [hav, hbv]
        unfold nanmean nanvarOfMean
        rw [hmeas]
        constructor
        · intro h0; simp [h0]
        · intro h0
          simp only [h0, if_false]
          exact ⟨rfl, rfl, div_nonneg (meanSquare_nonneg _) (by positivity), fun lo hi hb => mean_bounds h0 hb⟩
      · obtain ⟨ha, hb⟩ := h2 hp
        simp [ha, hb, hp]

/-- Two repetitions, one of them NaN. -/
example : ∃ a b, averagingEvaluate 2 ["x"] (fun k => .ok [("x", if k = 0 then none else some 3)]) = .ok (a, b) ∧
    a.val "x" = some 3 ∧ b.val "x" = some 0 := by
  set out : Nat → Except PyErr Series := fun k => .ok [("x", if k = 0 then none else some 3)] with hout
  have h := averaging 2 ["x"] out
  have hm : measured out "x" 2 = [3] := by
    have : List.range 2 = [0, 1] := rfl
    unfold measured
    rw [this]
    simp [hout, Series.val, List.lookup]
  cases hr : averagingEvaluate 2 ["x"] out with
  | error e =>
    rcases h.1.mp ⟨e, hr⟩ with ⟨k, _, e, he⟩ | ⟨k, _, s, hs, p, hp, hl⟩
    · cases he
    · simp only [hout] at hs
      cases Except.ok.inj hs
      simp at hp
      subst hp
      simp [List.lookup] at hl
  | ok ab =>
    obtain ⟨a, b⟩ := ab
    obtain ⟨_, _, h3⟩ := h.2 a b hr "x"
    obtain ⟨h4, h5, _⟩ := (h3 (by simp)).2 (by rw [hm]; simp)
    refine ⟨a, b, rfl, ?_, ?_⟩
    · rw [h4, hm]; norm_num [mean]
    · rw [h5, hm]; norm_num [meanSquare, mean]

/-- C92: a parameter that only one repetition measured (the others gave NaN, or there was only one) is reported with
the variance 0. -/
theorem averaging_single (n : Nat) (params : List String) (outcome : Nat → Except PyErr Series) (a b : Series)
    (h : averagingEvaluate n params outcome = .ok (a, b)) (p : String) (hp : p ∈ params) (x : ℝ)
    (hx : measured outcome p n = [x]) : a.val p = some x ∧ b.val p = some 0 := by
  obtain ⟨_, _, h3⟩ := (averaging n params outcome).2 a b h p
  obtain ⟨h4, h5, _⟩ := (h3 hp).2 (by rw [hx]; simp)
  rw [h4, h5, hx]
  norm_num [meanSquare, mean]

end Qtune.Evaluator
