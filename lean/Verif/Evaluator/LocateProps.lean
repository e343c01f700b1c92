import Verif.Evaluator.LocateSpec
import Verif.Evaluator.Props
import Verif.Signal.TransitionProps

/-!
# C157: the positions that `LeadTransition` reports
-/

namespace Qtune.Evaluator

theorem processRaw_last {first : Scan} {g : String} : ∀ {l : List (List ℝ × String)} {acc r : List (String × ℝ)},
    processRaw first l acc = .ok r → "position_" ++ g ∉ l.map (fun p => "position_" ++ p.2) →
    r.lookup ("position_" ++ g) = acc.lookup ("position_" ++ g)
  | [], acc, r, h, _ => by cases h; rfl
  | (d, g') :: rest, acc, r, h, hn => by
    rw [processRaw] at h
    split at h
    · cases h
    · split at h
      · rw [List.map_cons, List.mem_cons, not_or] at hn
        rw [processRaw_last h hn.2, lookup_setItem, if_neg hn.1]
      · cases h

/-- Which entry the result has for the `k`-th gate. -/
theorem processRaw_entry {first : Scan} : ∀ {l : List (List ℝ × String)} {acc r : List (String × ℝ)},
    processRaw first l acc = .ok r → (l.map Prod.snd).Nodup → ∀ {d : List ℝ} {g : String}, (d, g) ∈ l →
    ∃ i, Signal.leadIndex d (windowPoints first) = .ok i ∧ r.lookup ("position_" ++ g) = some (linspace first i)
  | (d', g') :: rest, acc, r, h, hnd, d, g, hmem => by
    rw [processRaw] at h
    split at h
    · cases h
    · rename_i i hi
      split at h
      · rw [List.map_cons, List.nodup_cons] at hnd
        rcases List.mem_cons.1 hmem with heq | hmem
        · cases heq
          refine ⟨i, hi, ?_⟩
          rw [processRaw_last h, lookup_setItem, if_pos rfl]
          intro hc
          obtain ⟨p, hp, he⟩ := List.mem_map.1 hc
          have : p.2 = _ := (String.append_right_inj _).1 he
          exact hnd.1 (List.mem_map.2 ⟨p, hp, this⟩)
        · exact processRaw_entry h hnd.2 hmem
      · cases h

/-- What `evaluate` does on a device with transitions. -/
theorem evaluate_wire (D : Wire) (ev : LeadTransition) (outcome : Nat → Except PyErr (List ℝ)) (s : World)
    (hD : Measures D ev outcome s) {first : Scan} {rest : List Scan} (hm : ev.measurements = first :: rest)
    (hgates : ev.shifting.Nodup) (hpoints : ∀ m ∈ ev.measurements, m.nPoints = first.nPoints)
    (hwin : windowPoints first + 2 ≤ first.nPoints) :
    ∃ r, (ev.evaluate outcome s).2 = .ok r ∧
      ∀ (k : Nat) (m : Scan) (g : String), ev.measurements[k]? = some m → ev.shifting[k]? = some g →
        ∃ i, Signal.leadIndex (D.scan m fun h => if h = g then s.volts h - ev.width else s.volts h) (windowPoints first) =
          .ok i ∧ r.lookup ("position_" ++ g) = some (linspace first i) := by
  have hget : ∀ k < (ev.measurements.zip ev.shifting).length, ∃ m g, ev.measurements[k]? = some m ∧
      ev.shifting[k]? = some g := by
    intro k hk
    rw [List.length_zip] at hk
    exact ⟨_, _, List.getElem?_eq_getElem (by omega), List.getElem?_eq_getElem (by omega)⟩
  obtain ⟨h1, h2, ds, h3, h4, h5⟩ := scanLoop_ok ev.width outcome s.volts (ev.measurements.zip ev.shifting) s rfl
    (by
      intro k hk
      obtain ⟨m, g, hm', hg'⟩ := hget k hk
      exact ⟨_, hD k m g hm' hg'⟩)
  have hds : ∀ (k : Nat) (m : Scan) (g : String), ev.measurements[k]? = some m → ev.shifting[k]? = some g →
      ds[k]? = some (D.scan m fun h => if h = g then s.volts h - ev.width else s.volts h) := by
    intro k m g hm' hg'
    have hkl : k < (ev.measurements.zip ev.shifting).length := by
      rw [List.length_zip]
      have := (List.getElem?_eq_some_iff.1 hm').1
      have := (List.getElem?_eq_some_iff.1 hg').1
      omega
    have h6 := h5 k hkl
    rw [hD k m g hm' hg'] at h6
    have hk : k < ds.length := by omega
    rw [List.getElem?_eq_getElem hk]
    replace h6 := Except.ok.inj h6
    rw [List.getD_eq_getElem?_getD, List.getElem?_eq_getElem hk] at h6
    exact congrArg some h6.symm
  have hlen : ∀ m v, (D.scan m v).length = m.nPoints := by
    intro m v
    simp [Wire.scan, Signal.transitionScan]
  have hl : ∀ p ∈ ds.zip ev.shifting, windowPoints first + 2 ≤ p.1.length ∧ p.1.length ≤ first.nPoints := by
    rintro ⟨d, g⟩ hp
    obtain ⟨k, hk⟩ := List.mem_iff_getElem?.mp (List.of_mem_zip hp).1
    have hkl : k < (ev.measurements.zip ev.shifting).length := by
      rw [← h4]; exact (List.getElem?_eq_some_iff.mp hk).1
    obtain ⟨m, g', hm', hg'⟩ := hget k hkl
    rw [hds k m g' hm' hg'] at hk
    cases hk
    have := hpoints m (List.mem_of_getElem? hm')
    rw [hlen, this]
    exact ⟨hwin, le_refl _⟩
  obtain ⟨r, hr'⟩ := processRaw_ok (acc := []) hl
  have hev : (ev.evaluate outcome s).2 = .ok r := by
    unfold LeadTransition.evaluate
    dsimp only
    revert h3
    cases scanLoop ev.width outcome s.volts (ev.measurements.zip ev.shifting) s with
    | mk a b =>
      intro h3
      simp only at h3
      subst h3
      rw [hm]
      dsimp only
      rw [hr']
  refine ⟨r, hev, fun k m g hm' hg' => ?_⟩
  have hnd : ((ds.zip ev.shifting).map Prod.snd).Nodup := by
    have hsub : ∀ (l : List (List ℝ)) (l' : List String), ((l.zip l').map Prod.snd).Sublist l' := by
      intro l
      induction l with
      | nil => intro l'; simp
      | cons a l ih =>
        intro l'
        cases l' with
        | nil => simp
        | cons b l' => simpa using ih l'
    exact hgates.sublist (hsub _ _)
  refine processRaw_entry hr' hnd ?_
  refine List.mem_iff_getElem?.2 ⟨k, ?_⟩
  rw [List.getElem?_zip_eq_some]
  exact ⟨hds k m g hm' hg', hg'⟩

theorem linspace_eq (m : Scan) (i : Nat) : linspace m i = m.center - m.range + i * spacing m := rfl

theorem spacing_pos {m : Scan} (hr : 0 < m.range) (hn : 2 ≤ m.nPoints) : 0 < spacing m := by
  have : (2 : ℝ) ≤ m.nPoints := by exact_mod_cast hn
  unfold spacing
  have : 0 < (m.nPoints : ℝ) - 1 := by linarith
  positivity

/-- **C157** (partial).  If all scans have the same center, range and number of points, `LeadTransition.evaluate` reports for
each gate a point of the axis of its scan, the position of the transition up to the distance of two points; if the
transition is not in the part of the scan where the window can be, the end of this part.  Missing: scans that
differ, see `lead_transition_scaled_refuted`. -/
theorem lead_transition_located_partial (D : Wire) (ev : LeadTransition) (outcome : Nat → Except PyErr (List ℝ)) (s : World)
    (hD : Measures D ev outcome s) {first : Scan} {rest : List Scan} (hm : ev.measurements = first :: rest)
    (hgates : ev.shifting.Nodup) (hsame : ∀ m ∈ ev.measurements, m.nPoints = first.nPoints ∧ m.center = first.center ∧
      m.range = first.range) (hr : 0 < first.range)
    (hwin : windowPoints first + 2 ≤ first.nPoints)
    (hshape : ∀ m ∈ ev.measurements, Signal.Peaked (D.shape m) (windowPoints first * spacing first / 2)) :
    ∃ r, (ev.evaluate outcome s).2 = .ok r ∧
      ∀ (k : Nat) (m : Scan) (g : String), ev.measurements[k]? = some m → ev.shifting[k]? = some g →
        ∃ i < m.nPoints, ∃ x, r.lookup ("position_" ++ g) = some x ∧ x = linspace m i ∧
          |x - inWindow m (windowPoints first)
            (D.position m fun h => if h = g then s.volts h - ev.width else s.volts h)| ≤ spacing m := by
  obtain ⟨r, h1, h2⟩ := evaluate_wire D ev outcome s hD hm hgates (fun m hm => (hsame m hm).1) hwin
  refine ⟨r, h1, fun k m g hm' hg' => ?_⟩
  obtain ⟨i, hi, hx⟩ := h2 k m g hm' hg'
  have hmem := List.mem_of_getElem? hm'
  obtain ⟨e1, e2, e3⟩ := hsame m hmem
  have hsp : spacing m = spacing first := by unfold spacing; rw [e1, e3]
  have hpos : 0 < spacing m := by rw [hsp]; exact spacing_pos hr (by omega)
  obtain ⟨r', h3, hlt, h4⟩ := Signal.transition_found (f := D.shape m) (x₀ := m.center - m.range) (δ := spacing m)
    (n := m.nPoints) (w := windowPoints first)
    (c := D.position m fun h => if h = g then s.volts h - ev.width else s.volts h) hpos (by omega)
    (by rw [hsp]; exact hshape m hmem)
  unfold Wire.scan at hi
  rw [hi] at h3
  cases h3
  have hlin : linspace first i = linspace m i := by rw [linspace_eq, linspace_eq, e2, e3, hsp]
  refine ⟨i, hlt, _, hx, hlin, ?_⟩
  rw [hlin, linspace_eq]
  exact h4

/-- **C157** is false if the scans have different ranges: the positions of all scans are read off the axis of the first one,
so that the distance to the center is scaled by the ratio of the ranges (up to the distance of two
points). -/
theorem lead_transition_scaled_refuted (D : Wire) (ev : LeadTransition) (outcome : Nat → Except PyErr (List ℝ)) (s : World)
    (hD : Measures D ev outcome s) {first : Scan} {rest : List Scan} (hm : ev.measurements = first :: rest)
    (hgates : ev.shifting.Nodup) (hsame : ∀ m ∈ ev.measurements, m.nPoints = first.nPoints ∧ m.center = first.center ∧ 0 < m.range)
    (hwin : windowPoints first + 2 ≤ first.nPoints)
    (hshape : ∀ m ∈ ev.measurements, Signal.Peaked (D.shape m) (windowPoints first * spacing m / 2)) :
    ∃ r, (ev.evaluate outcome s).2 = .ok r ∧
      ∀ (k : Nat) (m : Scan) (g : String), ev.measurements[k]? = some m → ev.shifting[k]? = some g →
        ∃ x, r.lookup ("position_" ++ g) = some x ∧
          |(x - m.center) - first.range / m.range * (inWindow m (windowPoints first)
            (D.position m fun h => if h = g then s.volts h - ev.width else s.volts h) - m.center)| ≤ spacing first := by
  obtain ⟨r, h1, h2⟩ := evaluate_wire D ev outcome s hD hm hgates (fun m hm => (hsame m hm).1) hwin
  refine ⟨r, h1, fun k m g hm' hg' => ?_⟩
  obtain ⟨i, hi, hx⟩ := h2 k m g hm' hg'
  refine ⟨_, hx, ?_⟩
  have hmem := List.mem_of_getElem? hm'
  obtain ⟨e1, e2, e3⟩ := hsame m hmem
  have hf : 0 < first.range := (hsame first (by rw [hm]; simp)).2.2
  have hpos : 0 < spacing m := spacing_pos e3 (by omega)
  obtain ⟨r', h3, -, h4⟩ := Signal.transition_found (f := D.shape m) (x₀ := m.center - m.range) (δ := spacing m)
    (n := m.nPoints) (w := windowPoints first)
    (c := D.position m fun h => if h = g then s.volts h - ev.width else s.volts h) hpos (by omega) (hshape m hmem)
  unfold Wire.scan at hi
  rw [hi] at h3
  cases h3
  have hsp : spacing first = first.range / m.range * spacing m := by
    unfold spacing
    rw [e1]
    field_simp
  have e : (linspace first i - m.center) - first.range / m.range * (inWindow m (windowPoints first)
      (D.position m fun h => if h = g then s.volts h - ev.width else s.volts h) - m.center) =
      first.range / m.range * (m.center - m.range + i * spacing m - inWindow m (windowPoints first)
      (D.position m fun h => if h = g then s.volts h - ev.width else s.volts h)) := by
    rw [linspace_eq, hsp, e2]
    field_simp
    ring
  rw [e, abs_mul, abs_of_pos (by positivity), hsp]
  exact mul_le_mul_of_nonneg_left h4 (by positivity)

/-- **C157**, refuted: the position that is reported is not the one of the transition, as soon as the transition is far enough from
the center, compared with the difference of the ranges. -/
theorem lead_transition_other_range_refuted (D : Wire) (ev : LeadTransition) (outcome : Nat → Except PyErr (List ℝ))
    (s : World) (hD : Measures D ev outcome s) {first : Scan} {rest : List Scan} (hm : ev.measurements = first :: rest)
    (hgates : ev.shifting.Nodup) (hsame : ∀ m ∈ ev.measurements, m.nPoints = first.nPoints ∧ m.center = first.center ∧ 0 < m.range)
    (hwin : windowPoints first + 2 ≤ first.nPoints)
    (hshape : ∀ m ∈ ev.measurements, Signal.Peaked (D.shape m) (windowPoints first * spacing m / 2))
    {k : Nat} {m : Scan} {g : String} (hk : ev.measurements[k]? = some m) (hg : ev.shifting[k]? = some g) {c : ℝ}
    (hc : c = inWindow m (windowPoints first) (D.position m fun h => if h = g then s.volts h - ev.width else s.volts h))
    (hfar : spacing first + spacing m < |first.range / m.range - 1| * |c - m.center|) :
    ∃ r x, (ev.evaluate outcome s).2 = .ok r ∧ r.lookup ("position_" ++ g) = some x ∧ spacing m < |x - c| := by
  obtain ⟨r, h1, h2⟩ := lead_transition_scaled_refuted D ev outcome s hD hm hgates hsame hwin hshape
  obtain ⟨x, hx, h3⟩ := h2 k m g hk hg
  refine ⟨r, x, h1, hx, ?_⟩
  rw [← hc] at h3
  rw [← abs_mul] at hfar
  have e : (first.range / m.range - 1) * (c - m.center) =
      -((x - m.center) - first.range / m.range * (c - m.center)) + (x - c) := by ring
  rw [e] at hfar
  have := abs_add_le (-((x - m.center) - first.range / m.range * (c - m.center))) (x - c)
  rw [abs_neg] at this
  linarith

/-- A device with two transitions that follow the voltages, with the shape that the simulation of the package uses. -/
noncomputable def exWire : Wire where
  position := fun _ v => (v "RFA" - v "RFB") * 1e-3
  shape := fun m t => 0 + 1 * Real.tanh (t / (m.range / 5))

/-- The default evaluator on this device meets the hypotheses. -/
example : ∃ r, (exLead.evaluate (fun k => .ok (exWire.scan (if k = 0 then ⟨"RFA", 0, 4e-3, 320⟩ else ⟨"RFB", 0, 4e-3, 320⟩)
      fun h => if h = (if k = 0 then "RFB" else "RFA") then 0 - 4e-3 else 0)) ⟨fun _ => 0, []⟩).2 = .ok r := by
  obtain ⟨r, h, -⟩ := lead_transition_located_partial exWire exLead (fun k => .ok (exWire.scan
      (if k = 0 then ⟨"RFA", 0, 4e-3, 320⟩ else ⟨"RFB", 0, 4e-3, 320⟩)
      fun h => if h = (if k = 0 then "RFB" else "RFA") then 0 - 4e-3 else 0)) ⟨fun _ => 0, []⟩ (by
      intro k m g hm hg
      rcases k with _ | _ | k
      · simp [exLead, defaultScans] at hm hg
        subst hm hg
        simp [exLead]
      · simp [exLead, defaultScans] at hm hg
        subst hm hg
        simp [exLead]
      · simp [exLead, defaultScans] at hm) (first := ⟨"RFA", 0, 4e-3, 320⟩) (rest := [⟨"RFB", 0, 4e-3, 320⟩]) rfl
      (by simp [exLead]) (by
        intro m hm
        simp [exLead, defaultScans] at hm
        rcases hm with rfl | rfl <;> simp) (by norm_num) (by rw [windowPoints_default]; norm_num) (by
        intro m hm
        have hr : 0 < m.range := by
          simp [exLead, defaultScans] at hm
          rcases hm with rfl | rfl <;> norm_num
        refine Signal.tanh_peaked one_ne_zero (by positivity) ?_
        rw [windowPoints_default]
        have := spacing_pos (m := ⟨"RFA", 0, 4e-3, 320⟩) (by norm_num) (by norm_num)
        positivity)
  exact ⟨r, h⟩

end Qtune.Evaluator
