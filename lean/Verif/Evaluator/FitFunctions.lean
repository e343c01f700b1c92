import Verif.Evaluator.FitSpec
import Mathlib.Topology.Order.OrderClosed

/-!
# The functions that are fitted to the response to a square pulse (C117)
-/

namespace Qtune.Evaluator.Fit

open Classical

theorem halfTime_pos : 0 < halfTime := by unfold halfTime; norm_num

theorem sinh_half {t : ℝ} (ht : 0 < t) : 0 < Real.sinh (1 / 2 * halfTime / t) :=
  Real.sinh_pos_iff.2 (div_pos (by have := halfTime_pos; linarith) ht)

theorem cosh_sub_exp (a : ℝ) : Real.cosh a - Real.exp a = -Real.sinh a := by
  rw [← Real.cosh_add_sinh]; ring

theorem cosh_sub_exp_neg (a : ℝ) : Real.cosh a - Real.exp (-a) = Real.sinh a := by
  rw [← Real.cosh_sub_sinh]; ring

/-- The part of the function after an edge at `b`: it starts at `offset - height / 2`. -/
noncomputable def edge (offset height t b x : ℝ) : ℝ :=
  offset + 1 / 2 * height * (Real.cosh (1 / 2 * halfTime / t) - Real.exp (1 / 2 * (halfTime - 2 * (x - b)) / t)) /
    Real.sinh (1 / 2 * halfTime / t)

theorem edge_start {offset height t b : ℝ} (ht : 0 < t) : edge offset height t b b = offset - height / 2 := by
  unfold edge
  have h : 1 / 2 * (halfTime - 2 * (b - b)) / t = 1 / 2 * halfTime / t := by ring
  rw [h, cosh_sub_exp]
  have := (sinh_half ht).ne'
  generalize Real.sinh (1 / 2 * halfTime / t) = S at *
  field_simp
  ring

theorem edge_stop {offset height t b : ℝ} (ht : 0 < t) :
    edge offset height t b (b + halfTime) = offset + height / 2 := by
  unfold edge
  have h : 1 / 2 * (halfTime - 2 * (b + halfTime - b)) / t = -(1 / 2 * halfTime / t) := by ring
  rw [h, cosh_sub_exp_neg]
  have := (sinh_half ht).ne'
  generalize Real.sinh (1 / 2 * halfTime / t) = S at *
  field_simp

theorem edge_continuous (offset height t b : ℝ) : Continuous (edge offset height t b) := by
  unfold edge
  fun_prop

theorem edge_relaxes {offset height t b : ℝ} (ht : 0 < t) :
    Relaxes (edge offset height t b) t (offset + height / 2 / Real.tanh (halfTime / (2 * t))) Set.univ := by
  intro x _ y _
  have hs := (sinh_half ht).ne'
  have ha : halfTime / (2 * t) = 1 / 2 * halfTime / t := by field_simp
  have hc := (Real.cosh_pos (1 / 2 * halfTime / t)).ne'
  have h : ∀ z, edge offset height t b z - (offset + height / 2 / Real.tanh (halfTime / (2 * t))) =
      -(1 / 2 * height) * Real.exp (1 / 2 * (halfTime - 2 * (z - b)) / t) / Real.sinh (1 / 2 * halfTime / t) := by
    intro z
    unfold edge
    rw [ha, Real.tanh_eq_sinh_div_cosh]
    generalize Real.sinh (1 / 2 * halfTime / t) = S at *
    generalize Real.cosh (1 / 2 * halfTime / t) = C at *
    generalize Real.exp (1 / 2 * (halfTime - 2 * (z - b)) / t) = E at *
    field_simp
    ring
  rw [h, h]
  have he : Real.exp (1 / 2 * (halfTime - 2 * (y - b)) / t) =
      Real.exp (-(y - x) / t) * Real.exp (1 / 2 * (halfTime - 2 * (x - b)) / t) := by
    rw [← Real.exp_add]; congr 1; field_simp; ring
  rw [he]
  ring

/-- `func_lead_times_v1` in terms of edges. -/
theorem leadTimes1_eq (height tFall tRise beginRise beginFall offset last x : ℝ) (h : beginRise ≤ beginFall) :
    leadTimes1 height tFall tRise beginRise beginFall offset last x =
      if beginRise ≤ x then
        if beginFall ≤ x then edge offset (-height) tFall beginFall x else edge offset height tRise beginRise x
      else edge offset (-height) tFall beginFall (x + last) := by
  have e1 : ∀ z, 1 / 2 * (3 * halfTime - 2 * (z - (beginFall - halfTime))) / tFall =
      1 / 2 * (halfTime - 2 * (z - beginFall)) / tFall := by intro z; ring
  unfold leadTimes1 edge
  dsimp only
  simp only [e1]
  by_cases h1 : beginRise ≤ x
  · rw [if_neg (not_lt.2 h1), if_pos h1]
    by_cases h2 : beginFall ≤ x
    · rw [if_neg (fun h => absurd h.2 (not_lt.2 h2)), if_pos h2]; ring
    · rw [if_pos ⟨h1, not_le.1 h2⟩, if_neg h2]
  · rw [if_pos (not_le.1 h1), if_neg h1]; ring

/-- C117 for `func_lead_times_v1`: after the first edge the signal starts at `offset - height / 2` and relaxes with the
time constant `t_rise` to a level above; after the second edge it starts at `offset + height / 2` and relaxes with the
time constant `t_fall` to a level below.  Before the first edge it is the signal of one scan length later.  If the
edges are half a period (two microseconds) apart, the signal does not jump at the second one; if the scan is one period long, it does not
jump at the first one either. -/
theorem lead_times_v1 {height tFall tRise beginRise beginFall offset last : ℝ} (hf : 0 < tFall) (hr : 0 < tRise)
    (hb : beginRise < beginFall) :
    let y := leadTimes1 height tFall tRise beginRise beginFall offset last
    y beginRise = offset - height / 2 ∧
    Relaxes y tRise (offset + height / 2 / Real.tanh (halfTime / (2 * tRise))) (Set.Ico beginRise beginFall) ∧
    y beginFall = offset + height / 2 ∧
    Relaxes y tFall (offset - height / 2 / Real.tanh (halfTime / (2 * tFall))) (Set.Ici beginFall) ∧
    (∀ x < beginRise, beginFall ≤ x + last → y x = y (x + last)) ∧
    (beginFall = beginRise + 2e-6 → ContinuousOn y (Set.Ici beginRise)) ∧
    (beginFall = beginRise + 2e-6 → last = 4e-6 → Continuous y) := by
  intro y
  have hT : halfTime = 2e-6 := rfl
  rw [← hT]
  have hy : ∀ x, y x = if beginRise ≤ x then
        if beginFall ≤ x then edge offset (-height) tFall beginFall x else edge offset height tRise beginRise x
      else edge offset (-height) tFall beginFall (x + last) :=
    fun x => leadTimes1_eq height tFall tRise beginRise beginFall offset last x hb.le
  have hrise : ∀ x ∈ Set.Ico beginRise beginFall, y x = edge offset height tRise beginRise x := by
    intro x hx
    rw [hy, if_pos hx.1, if_neg (not_le.2 hx.2)]
  have hfall : ∀ x ∈ Set.Ici beginFall, y x = edge offset (-height) tFall beginFall x := by
    intro x hx
    rw [hy, if_pos (hb.le.trans hx), if_pos (show beginFall ≤ x from hx)]
  have hmid : beginFall = beginRise + halfTime → Continuous fun x =>
      if beginFall ≤ x then edge offset (-height) tFall beginFall x else edge offset height tRise beginRise x := by
    intro hbf
    refine Continuous.if_le (edge_continuous _ _ _ _) (edge_continuous _ _ _ _) continuous_const continuous_id ?_
    rintro x rfl
    rw [edge_start hf, hbf, edge_stop hr]
    ring
  refine ⟨?_, ?_, ?_, ?_, ?_, ?_, ?_⟩
  · rw [hrise _ ⟨le_rfl, hb⟩, edge_start hr]
  · intro a ha b hb'
    rw [hrise a ha, hrise b hb']
    exact edge_relaxes hr a trivial b trivial
  · rw [hfall _ (Set.mem_Ici.2 le_rfl), edge_start hf]; ring
  · intro a ha b hb'
    rw [hfall a ha, hfall b hb']
    have := edge_relaxes (offset := offset) (height := -height) (b := beginFall) hf a trivial b trivial
    have e : offset + -height / 2 / Real.tanh (halfTime / (2 * tFall)) =
        offset - height / 2 / Real.tanh (halfTime / (2 * tFall)) := by ring
    rw [e] at this
    exact this
  · intro x hx hl
    rw [hy x, if_neg (not_le.2 hx), hfall _ hl]
  · intro hbf
    refine (hmid hbf).continuousOn.congr ?_
    intro x hx
    rw [hy, if_pos (show beginRise ≤ x from hx)]
  · intro hbf hlast
    replace hlast : last = 2 * halfTime := by rw [hlast, hT]; norm_num
    have : Continuous fun x => if beginRise ≤ x then
        (if beginFall ≤ x then edge offset (-height) tFall beginFall x else edge offset height tRise beginRise x)
      else edge offset (-height) tFall beginFall (x + last) := by
      refine Continuous.if_le (hmid hbf) ((edge_continuous _ _ _ _).comp (continuous_id.add continuous_const))
        continuous_const continuous_id ?_
      rintro x rfl
      rw [if_neg (not_le.2 hb), edge_start hr]
      have : beginRise + last = beginFall + halfTime := by rw [hbf, hlast]; ring
      simp only [this]
      rw [edge_stop hf]
      ring
    exact this.congr fun x => (hy x).symm

/-- The start values of the evaluator: the edges are half a period apart. -/
example : (0 : ℝ) < 50e-9 ∧ (70e-9 : ℝ) < 2070e-9 ∧ (2070e-9 : ℝ) = 70e-9 + halfTime := by
  unfold halfTime; norm_num

/-- C117 for `func_lead_times_v2` (partial): if both time constants are equal, the first edge is at time 0, the second
one half a period later and the linear pieces have no length, it is the same function as `func_lead_times_v1` for all
times that are not negative.  Missing: different time constants and other positions, see `lead_times_v2_refuted`. -/
theorem lead_times_v2_partial {height t offset s l s' l' last : ℝ} (ht : 0 < t) {x : ℝ} (hx : 0 ≤ x) :
    leadTimes2 height t t 0 halfTime offset s l 0 s' l' 0 last x =
      leadTimes1 height t t 0 halfTime offset last x := by
  rw [leadTimes1_eq _ _ _ _ _ _ _ _ halfTime_pos.le, if_pos hx]
  unfold leadTimes2
  dsimp only
  rcases lt_trichotomy x halfTime with h | h | h
  · rw [if_pos ⟨by linarith, h.le⟩, if_neg (not_le.2 h)]
    unfold edge
    rw [sub_zero]
  · subst h
    rw [if_pos ⟨by linarith, le_rfl⟩, if_pos le_rfl, edge_start ht]
    have e : 1 / 2 * (halfTime - 2 * halfTime) / t = -(1 / 2 * halfTime / t) := by ring
    rw [e, cosh_sub_exp_neg]
    have := (sinh_half ht).ne'
    generalize Real.sinh (1 / 2 * halfTime / t) = S at *
    field_simp
    ring
  · have h0 : 0 < x := halfTime_pos.trans h
    rw [if_neg (fun h' => absurd h'.2 (not_le.2 h)), if_neg (not_le.2 h0),
      if_neg (fun h' => absurd h'.2 (by linarith)), if_neg (fun h' => absurd h'.2 (by linarith)), if_pos h.le]
    unfold edge
    have e : 1 / 2 * (halfTime + 2 * halfTime - 2 * x) / t = 1 / 2 * (halfTime - 2 * (x - halfTime)) / t := by ring
    rw [e]
    ring

/-- C117 is false of `func_lead_times_v2`.  The part after the second edge is scaled by the time constant of the first
one: for any two different time constants the signal jumps there.  And after a first edge at any other time than 0 it
does not start at `offset - height / 2`. -/
theorem lead_times_v2_refuted {height tFall tRise offset s l s' l' last : ℝ} (hh : height ≠ 0) (hf : 0 < tFall)
    (hr : 0 < tRise) :
    (tFall ≠ tRise →
      ¬ ContinuousOn (leadTimes2 height tFall tRise 0 halfTime offset s l 0 s' l' 0 last) (Set.Ici 0)) ∧
    ∀ b, b ≠ 0 →
      leadTimes2 height tFall tRise b (b + halfTime) offset s l 0 s' l' 0 last b ≠ offset - height / 2 := by
  have hs := (sinh_half hr).ne'
  have solve : ∀ C E E', offset + height / 2 = offset + 1 / 2 * (-1 * height) * (C - E) /
      Real.sinh (1 / 2 * halfTime / tRise) → C - E' = -Real.sinh (1 / 2 * halfTime / tRise) → E = E' := by
    intro C E E' h1 h2
    generalize Real.sinh (1 / 2 * halfTime / tRise) = S at *
    have h3 : height * (C - E + S) = 0 := by
      field_simp at h1
      linarith
    have h4 := (mul_eq_zero.1 h3).resolve_left hh
    linarith
  constructor
  · intro hne hc
    have hc' := hc halfTime (Set.mem_Ici.2 halfTime_pos.le)
    have hright := hc'.mono (Set.Ioi_subset_Ici halfTime_pos.le)
    have hval : leadTimes2 height tFall tRise 0 halfTime offset s l 0 s' l' 0 last halfTime = offset + height / 2 := by
      unfold leadTimes2
      dsimp only
      rw [if_pos ⟨by have := halfTime_pos; linarith, le_rfl⟩]
      have e : 1 / 2 * (halfTime - 2 * halfTime) / tRise = -(1 / 2 * halfTime / tRise) := by ring
      rw [e, cosh_sub_exp_neg]
      clear hc hc' hright
      generalize Real.sinh (1 / 2 * halfTime / tRise) = S at *
      field_simp
    have hcg : Continuous fun x => offset + 1 / 2 * (-1 * height) * (Real.cosh (1 / 2 * halfTime / tRise) -
        Real.exp (1 / 2 * (halfTime + 2 * halfTime - 2 * x) / tFall)) / Real.sinh (1 / 2 * halfTime / tRise) := by
      fun_prop
    have hlim := (hcg.continuousWithinAt (s := Set.Ioi halfTime) (x := halfTime))
    have heq := tendsto_nhds_unique (hright.tendsto) (hlim.tendsto.congr' (by
      refine Filter.eventually_of_mem self_mem_nhdsWithin ?_
      intro x hx
      have hx' : halfTime < x := hx
      have h0 : 0 < x := halfTime_pos.trans hx'
      unfold leadTimes2
      dsimp only
      rw [if_neg (fun h' => absurd h'.2 (not_le.2 hx')), if_neg (not_le.2 h0),
        if_neg (fun h' => absurd h'.2 (by linarith)), if_neg (fun h' => absurd h'.2 (by linarith))]))
    rw [hval] at heq
    have e : 1 / 2 * (halfTime + 2 * halfTime - 2 * halfTime) / tFall = 1 / 2 * halfTime / tFall := by ring
    rw [e] at heq
    have h1 : Real.exp (1 / 2 * halfTime / tFall) = Real.exp (1 / 2 * halfTime / tRise) := by
      have h2 := cosh_sub_exp (1 / 2 * halfTime / tRise)
      exact solve _ _ _ heq h2
    have h2 := Real.exp_injective h1
    rw [div_eq_div_iff hf.ne' hr.ne'] at h2
    have hp := halfTime_pos
    exact hne (mul_left_cancel₀ (by linarith : (1 / 2 * halfTime) ≠ 0) h2).symm
  · intro b hb heq
    have hv : leadTimes2 height tFall tRise b (b + halfTime) offset s l 0 s' l' 0 last b =
        offset + 1 / 2 * height * (Real.cosh (1 / 2 * halfTime / tRise) -
          Real.exp (1 / 2 * (b + halfTime - 2 * b) / tRise)) / Real.sinh (1 / 2 * halfTime / tRise) := by
      unfold leadTimes2
      dsimp only
      rw [if_pos ⟨by linarith, by have := halfTime_pos; linarith⟩]
    rw [hv] at heq
    have h1 := solve (Real.cosh (1 / 2 * halfTime / tRise)) (Real.exp (1 / 2 * (b + halfTime - 2 * b) / tRise)) _ (by
      have : offset + height / 2 = offset + offset - (offset - height / 2) := by ring
      rw [this, ← heq]
      ring) (cosh_sub_exp (1 / 2 * halfTime / tRise))
    have h2 := Real.exp_injective h1
    rw [div_left_inj' hr.ne'] at h2
    exact hb (by linarith)

end Qtune.Evaluator.Fit
