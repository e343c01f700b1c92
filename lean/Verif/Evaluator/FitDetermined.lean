import Verif.Evaluator.FitPieces
import Verif.Evaluator.FitExactLead

/-!
# The measured values determine the tunnel times (C143)
-/

namespace Qtune.Evaluator.Fit

open Classical

theorem halfTime_pos' : 0 < halfTime := by unfold halfTime; norm_num

/-- All exponential pieces have the same form. -/
theorem decay_form (offset k c s w x t : ℝ) :
    offset + 1 / 2 * k * (c - Real.exp (1 / 2 * (w - 2 * x) / t)) / s =
      (offset + 1 / 2 * k * c / s) + (-(1 / 2 * k * Real.exp (w / 2 / t) / s)) * Real.exp (-x / t) := by
  have : 1 / 2 * (w - 2 * x) / t = w / 2 / t + -x / t := by ring
  rw [this, Real.exp_add]
  ring

theorem sinh_half_pos {t : ℝ} (ht : 0 < t) : 0 < Real.sinh (1 / 2 * halfTime / t) := by
  rw [Real.sinh_pos_iff]
  have := halfTime_pos'
  positivity

/-- The first difference of a curve that begins with a decay. -/
theorem first_difference {d t b a : ℝ} (hd : 0 < d) (ht : 0 < t) {f : Nat → ℝ} (h0 : f 0 = a + b * Real.exp (-((0 : Nat) * d) / t))
    (h1 : f 1 = a + b * Real.exp (-((1 : Nat) * d) / t)) {c : ℝ} (hc : b * c < 0) : (f 1 - f 0) * c > 0 := by
  rw [h0, h1]
  have := exp_lt_of_lt hd ht (show 0 < 1 by omega)
  have h : (a + b * Real.exp (-((1 : Nat) * d) / t) - (a + b * Real.exp (-((0 : Nat) * d) / t))) * c =
      -(b * c) * (Real.exp (-((0 : Nat) * d) / t) - Real.exp (-((1 : Nat) * d) / t)) := by ring
  rw [h]
  exact mul_pos (by linarith) (sub_pos.2 this)

theorem index_lt {d : ℝ} (hd : 0 < d) {i j : Nat} (h : (i : ℝ) * d < j * d) : i < j := by
  have := lt_of_mul_lt_mul_right h hd.le
  exact_mod_cast this

theorem index_le {d : ℝ} (hd : 0 < d) {i j : Nat} (h : i ≤ j) : (i : ℝ) * d ≤ j * d := by
  have : (i : ℝ) ≤ j := by exact_mod_cast h
  nlinarith

theorem sign_product {height u v x y : ℝ} (hh : height ≠ 0) (hu : 0 < u) (hv : 0 < v) (hx : 0 < x) (hy : 0 < y) :
    -(1 / 2 * height * u / x) * -(1 / 2 * (-1 * height) * v / y) < 0 := by
  have : -(1 / 2 * height * u / x) * -(1 / 2 * (-1 * height) * v / y) = -(1 / 4 * height ^ 2 * (u / x) * (v / y)) := by ring
  rw [this]
  have : 0 < 1 / 4 * height ^ 2 * (u / x) * (v / y) := by positivity
  linarith

/-- The pieces of the response to a pulse. -/
theorem leadTimes1_pieces (height tFall tRise beginRise beginFall offset last : ℝ) :
    ∃ aR bR aF bF bT : ℝ,
      (∀ x < beginRise, leadTimes1 height tFall tRise beginRise beginFall offset last x = aF + bT * Real.exp (-x / tFall)) ∧
      (∀ x, beginRise ≤ x → x < beginFall →
        leadTimes1 height tFall tRise beginRise beginFall offset last x = aR + bR * Real.exp (-x / tRise)) ∧
      (∀ x, beginRise ≤ x → beginFall ≤ x →
        leadTimes1 height tFall tRise beginRise beginFall offset last x = aF + bF * Real.exp (-x / tFall)) ∧
      (height ≠ 0 → 0 < tRise → 0 < tFall → bR * bF < 0 ∧ bT * bR < 0) := by
  refine ⟨offset + 1 / 2 * height * Real.cosh (1 / 2 * halfTime / tRise) / Real.sinh (1 / 2 * halfTime / tRise),
    -(1 / 2 * height * Real.exp ((halfTime + 2 * beginRise) / 2 / tRise) / Real.sinh (1 / 2 * halfTime / tRise)),
    offset + 1 / 2 * (-1 * height) * Real.cosh (1 / 2 * halfTime / tFall) / Real.sinh (1 / 2 * halfTime / tFall),
    -(1 / 2 * (-1 * height) * Real.exp ((3 * halfTime + 2 * (beginFall - halfTime)) / 2 / tFall) /
      Real.sinh (1 / 2 * halfTime / tFall)),
    -(1 / 2 * (-1 * height) * Real.exp ((3 * halfTime - 2 * (last - (beginFall - halfTime))) / 2 / tFall) /
        Real.sinh (1 / 2 * halfTime / tFall)), ?_, ?_, ?_, ?_⟩
  · intro x hx
    have e : 3 * halfTime - 2 * (x + last - (beginFall - halfTime)) =
        3 * halfTime - 2 * (last - (beginFall - halfTime)) - 2 * x := by ring
    rw [← decay_form, leadTimes1, if_pos hx, e]
  · intro x h1 h2
    have e : halfTime - 2 * (x - beginRise) = halfTime + 2 * beginRise - 2 * x := by ring
    rw [← decay_form, leadTimes1, if_neg (not_lt.2 h1), if_pos ⟨h1, h2⟩, e]
  · intro x h1 h2
    have e : 3 * halfTime - 2 * (x - (beginFall - halfTime)) = 3 * halfTime + 2 * (beginFall - halfTime) - 2 * x := by ring
    rw [← decay_form, leadTimes1, if_neg (not_lt.2 h1), if_neg (fun h => absurd h.2 (not_lt.2 h2)), e]
  · intro hh hR hF
    refine ⟨sign_product hh (Real.exp_pos _) (Real.exp_pos _) (sinh_half_pos hR) (sinh_half_pos hF), ?_⟩
    rw [mul_comm]
    exact sign_product hh (Real.exp_pos _) (Real.exp_pos _) (sinh_half_pos hR) (sinh_half_pos hF)

/-- The response to the pulse, measured at equidistant times: at least two times are before the rise, nine between rise
and fall (from index `m` on) and eight after the fall (from index `e` on).  All responses that agree with it at these times have the same tunnel
times. -/
theorem tunnel_times_determined {d : ℝ} (hd : 0 < d) {n m e : Nat}
    {height tFall tRise beginRise beginFall offset last : ℝ} (hh : height ≠ 0) (hF : 0 < tFall) (hR : 0 < tRise)
    (h0 : d < beginRise) (hm : beginRise ≤ m * d) (hm' : (m + 8) * d < beginFall) (he : beginFall ≤ e * d) (hen : e + 8 ≤ n)
    {height' tFall' tRise' beginRise' beginFall' offset' : ℝ} (hF' : 0 ≤ tFall') (hR' : 0 ≤ tRise')
    (h : ∀ j < n, leadTimes1 height tFall tRise beginRise beginFall offset last (j * d) =
      leadTimes1 height' tFall' tRise' beginRise' beginFall' offset' last (j * d)) :
    tRise' = tRise ∧ tFall' = tFall := by
  have hm1 : 1 < m := index_lt hd (by push_cast; linarith)
  have hme : m + 9 ≤ e := by
    have : m + 8 < e := index_lt hd (by push_cast; linarith)
    omega
  obtain ⟨aR, bR, aF, bF, bT, p1, p2, p3, hs⟩ := leadTimes1_pieces height tFall tRise beginRise beginFall offset last
  obtain ⟨aR', bR', aF', bF', bT', q1, q2, q3, -⟩ := leadTimes1_pieces height' tFall' tRise' beginRise' beginFall' offset' last
  obtain ⟨hs1, hs2⟩ := hs hh hR hF
  refine pieces_determined (aR := aR) (aF := aF) (f := fun j => leadTimes1 height tFall tRise beginRise beginFall offset last (j * d))
    hd hR hF hR' hF' hm1 hme hen hs1 (first_difference
      (f := fun j => leadTimes1 height tFall tRise beginRise beginFall offset last (j * d)) hd hF (p1 _ (by push_cast; linarith))
      (p1 _ (by push_cast; linarith)) hs2) ?_ ?_
    (F := {j | j < n ∧ (j : ℝ) * d < beginRise'}) (G := {j | j < n ∧ beginRise' ≤ (j : ℝ) * d ∧ (j : ℝ) * d < beginFall'})
    (H := {j | j < n ∧ beginRise' ≤ (j : ℝ) * d ∧ beginFall' ≤ (j : ℝ) * d}) (L₁ := ∅) (L₂ := ∅)
    ⟨aF', bT', fun j hj => (h j hj.1).trans (q1 _ hj.2)⟩ ⟨aR', bR', fun j hj => (h j hj.1).trans (q2 _ hj.2.1 hj.2.2)⟩
    ⟨aF', bF', fun j hj => (h j hj.1).trans (q3 _ hj.2.1 hj.2.2)⟩ ⟨0, 0, fun j hj => hj.elim⟩ ⟨0, 0, fun j hj => hj.elim⟩ ?_ ?_ ?_ ?_
  · intro j h1 h2
    refine p2 _ (hm.trans (index_le hd h1)) (lt_of_le_of_lt (index_le hd (show j ≤ m + 8 by omega)) ?_)
    push_cast
    exact hm'
  · intro j h1 h2
    have hj : beginFall ≤ j * d := he.trans (index_le hd h1)
    have : (m : ℝ) * d ≤ (m + 8) * d := by nlinarith
    exact p3 _ (by linarith) hj
  · intro j hj
    rcases lt_or_ge ((j : ℝ) * d) beginRise' with h1 | h1
    · exact .inl ⟨hj, h1⟩
    · rcases lt_or_ge ((j : ℝ) * d) beginFall' with h2 | h2
      · exact .inr (.inl ⟨hj, h1, h2⟩)
      · exact .inr (.inr (.inl ⟨hj, h1, h2⟩))
  · exact fun i j hj hij => ⟨by have := hj.1; omega, lt_of_le_of_lt (index_le hd hij) hj.2⟩
  · exact fun i j k hi hk h1 h2 => ⟨by have := hk.1; omega, hi.2.1.trans (index_le hd h1), lt_of_le_of_lt (index_le hd h2) hk.2.2⟩
  · exact fun i j hi hij hj => ⟨hj, hi.2.1.trans (index_le hd hij), hi.2.2.trans (index_le hd hij)⟩

/-- The pieces of the response with straight pieces. -/
theorem leadTimes2_pieces (height tFall tRise beginRise beginFall offset slope line lengthFall slope1 line1 lengthRise last : ℝ) :
    ∃ aR bR aF bF bT : ℝ,
      (∀ x, x ≤ beginRise → ¬ (beginRise + lengthRise ≤ x ∧ x ≤ beginFall) → leadTimes2 height tFall tRise beginRise beginFall offset
        slope line lengthFall slope1 line1 lengthRise last x = aF + bT * Real.exp (-x / tFall)) ∧
      (∀ x, beginRise + lengthRise ≤ x → x ≤ beginFall → leadTimes2 height tFall tRise beginRise beginFall offset
        slope line lengthFall slope1 line1 lengthRise last x = aR + bR * Real.exp (-x / tRise)) ∧
      (∀ x, beginRise < x → beginFall < x → beginRise + lengthRise ≤ x → beginFall + lengthFall ≤ x → leadTimes2 height tFall tRise
        beginRise beginFall offset slope line lengthFall slope1 line1 lengthRise last x = aF + bF * Real.exp (-x / tFall)) ∧
      (∀ x, beginRise < x → beginFall < x → x < beginFall + lengthFall → leadTimes2 height tFall tRise
        beginRise beginFall offset slope line lengthFall slope1 line1 lengthRise last x = line + slope * x) ∧
      (∀ x, beginRise < x → x < beginRise + lengthRise → (x ≤ beginFall ∨ beginFall + lengthFall ≤ x) → leadTimes2 height tFall tRise
        beginRise beginFall offset slope line lengthFall slope1 line1 lengthRise last x = line1 + slope1 * x) ∧
      (height ≠ 0 → 0 < tRise → 0 < tFall → bR * bF < 0 ∧ bT * bR < 0) := by
  refine ⟨offset + 1 / 2 * height * Real.cosh (1 / 2 * halfTime / tRise) / Real.sinh (1 / 2 * halfTime / tRise),
    -(1 / 2 * height * Real.exp (beginFall / 2 / tRise) / Real.sinh (1 / 2 * halfTime / tRise)),
    offset + 1 / 2 * (-1 * height) * Real.cosh (1 / 2 * halfTime / tRise) / Real.sinh (1 / 2 * halfTime / tRise),
    -(1 / 2 * (-1 * height) * Real.exp ((halfTime + 2 * beginFall) / 2 / tFall) / Real.sinh (1 / 2 * halfTime / tRise)),
    -(1 / 2 * (-1 * height) * Real.exp ((beginFall - 2 * last) / 2 / tFall) / Real.sinh (1 / 2 * halfTime / tRise)),
    ?_, ?_, ?_, ?_, ?_, ?_⟩
  · intro x h1 h2
    rw [← decay_form, leadTimes2, if_neg h2, if_pos h1]
    congr 6
    ring
  · intro x h1 h2
    rw [← decay_form, leadTimes2, if_pos ⟨h1, h2⟩]
  · intro x h1 h2 h3 h4
    rw [← decay_form, leadTimes2, if_neg (fun h => absurd h.2 (not_le.2 h2)), if_neg (not_le.2 h1),
      if_neg (fun h => absurd h.2 (not_lt.2 h4)), if_neg (fun h => absurd h.2 (not_lt.2 h3))]
  · intro x h1 h2 h3
    rw [leadTimes2, if_neg (fun h => absurd h.2 (not_le.2 h2)), if_neg (not_le.2 h1), if_pos ⟨h2, h3⟩, mul_comm]
  · intro x h1 h2 h3
    rw [leadTimes2, if_neg (fun h => absurd h.1 (not_le.2 h2)), if_neg (not_le.2 h1), if_neg, if_pos ⟨h1, h2⟩, mul_comm]
    rintro ⟨h4, h5⟩
    rcases h3 with h3 | h3 <;> linarith
  · intro hh hR hF
    refine ⟨sign_product hh (Real.exp_pos _) (Real.exp_pos _) (sinh_half_pos hR) (sinh_half_pos hR), ?_⟩
    rw [mul_comm]
    exact sign_product hh (Real.exp_pos _) (Real.exp_pos _) (sinh_half_pos hR) (sinh_half_pos hR)

/-- As `tunnel_times_determined` for the response with straight pieces at the beginning of rise and fall: nine of the times are after the first
straight piece and before the fall, eight after the second one. -/
theorem tunnel_times_determined_lines {d : ℝ} (hd : 0 < d) {n m e : Nat}
    {height tFall tRise beginRise beginFall offset slope line lengthFall slope1 line1 lengthRise last : ℝ} (hh : height ≠ 0)
    (hF : 0 < tFall) (hR : 0 < tRise) (hlr : 0 ≤ lengthRise)
    (h0 : d < beginRise) (hm : beginRise + lengthRise ≤ m * d) (hm' : (m + 8) * d ≤ beginFall) (he : beginFall + lengthFall ≤ e * d)
    (he' : beginFall < e * d) (hen : e + 8 ≤ n)
    {height' tFall' tRise' beginRise' beginFall' offset' slope' line' lengthFall' slope1' line1' lengthRise' : ℝ}
    (hF' : 0 ≤ tFall') (hR' : 0 ≤ tRise') (hlr' : 0 ≤ lengthRise')
    (h : ∀ j < n, leadTimes2 height tFall tRise beginRise beginFall offset slope line lengthFall slope1 line1 lengthRise last (j * d) =
      leadTimes2 height' tFall' tRise' beginRise' beginFall' offset' slope' line' lengthFall' slope1' line1' lengthRise' last (j * d)) :
    tRise' = tRise ∧ tFall' = tFall := by
  have hm1 : 1 < m := index_lt hd (by push_cast; linarith)
  have hme : m + 9 ≤ e := by
    have : m + 8 < e := index_lt hd (by push_cast; linarith)
    omega
  obtain ⟨aR, bR, aF, bF, bT, p1, p2, p3, -, -, hs⟩ := leadTimes2_pieces height tFall tRise beginRise beginFall offset slope line
    lengthFall slope1 line1 lengthRise last
  obtain ⟨aR', bR', aF', bF', bT', q1, q2, q3, q4, q5, -⟩ := leadTimes2_pieces height' tFall' tRise' beginRise' beginFall' offset'
    slope' line' lengthFall' slope1' line1' lengthRise' last
  obtain ⟨hs1, hs2⟩ := hs hh hR hF
  refine pieces_determined (aR := aR) (aF := aF) (f := fun j => leadTimes2 height tFall tRise beginRise beginFall offset slope line lengthFall slope1 line1
      lengthRise last (j * d))
    hd hR hF hR' hF' hm1 hme hen hs1 (first_difference
      (f := fun j => leadTimes2 height tFall tRise beginRise beginFall offset slope line lengthFall slope1 line1 lengthRise last (j * d))
      hd hF (p1 _ (by push_cast; linarith) (by push_cast; intro h; linarith [h.1]))
      (p1 _ (by push_cast; linarith) (by push_cast; intro h; linarith [h.1])) hs2) ?_ ?_
    (F := {j | j < n ∧ (j : ℝ) * d ≤ beginRise' ∧ ¬ (beginRise' + lengthRise' ≤ (j : ℝ) * d ∧ (j : ℝ) * d ≤ beginFall')})
    (G := {j | j < n ∧ beginRise' + lengthRise' ≤ (j : ℝ) * d ∧ (j : ℝ) * d ≤ beginFall'})
    (H := {j | j < n ∧ beginRise' < (j : ℝ) * d ∧ beginFall' < (j : ℝ) * d ∧ beginRise' + lengthRise' ≤ (j : ℝ) * d ∧
      beginFall' + lengthFall' ≤ (j : ℝ) * d})
    (L₁ := {j | j < n ∧ beginRise' < (j : ℝ) * d ∧ beginFall' < (j : ℝ) * d ∧ (j : ℝ) * d < beginFall' + lengthFall'})
    (L₂ := {j | j < n ∧ beginRise' < (j : ℝ) * d ∧ (j : ℝ) * d < beginRise' + lengthRise' ∧
      ((j : ℝ) * d ≤ beginFall' ∨ beginFall' + lengthFall' ≤ (j : ℝ) * d)})
    ⟨aF', bT', fun j hj => (h j hj.1).trans (q1 _ hj.2.1 hj.2.2)⟩ ⟨aR', bR', fun j hj => (h j hj.1).trans (q2 _ hj.2.1 hj.2.2)⟩
    ⟨aF', bF', fun j hj => (h j hj.1).trans (q3 _ hj.2.1 hj.2.2.1 hj.2.2.2.1 hj.2.2.2.2)⟩
    ⟨line', slope', fun j hj => (h j hj.1).trans (q4 _ hj.2.1 hj.2.2.1 hj.2.2.2)⟩
    ⟨line1', slope1', fun j hj => (h j hj.1).trans (q5 _ hj.2.1 hj.2.2.1 hj.2.2.2)⟩ ?_ ?_ ?_ ?_
  · intro j h1 h2
    refine p2 _ (hm.trans (index_le hd h1)) ((index_le hd (show j ≤ m + 8 by omega)).trans ?_)
    push_cast
    exact hm'
  · intro j h1 h2
    have hj : (e : ℝ) * d ≤ j * d := index_le hd h1
    have : (m : ℝ) * d ≤ (m + 8) * d := by nlinarith
    exact p3 _ (by linarith) (by linarith) (by linarith) (by linarith)
  · intro j hj
    by_cases h1 : beginRise' + lengthRise' ≤ (j : ℝ) * d ∧ (j : ℝ) * d ≤ beginFall'
    · exact .inr (.inl ⟨hj, h1⟩)
    · rcases le_or_gt ((j : ℝ) * d) beginRise' with h2 | h2
      · exact .inl ⟨hj, h2, h1⟩
      · rcases le_or_gt ((j : ℝ) * d) beginFall' with h3 | h3
        · exact .inr (.inr (.inr (.inr ⟨hj, h2, not_le.1 fun h => h1 ⟨h, h3⟩, .inl h3⟩)))
        · rcases lt_or_ge ((j : ℝ) * d) (beginFall' + lengthFall') with h4 | h4
          · exact .inr (.inr (.inr (.inl ⟨hj, h2, h3, h4⟩)))
          · rcases lt_or_ge ((j : ℝ) * d) (beginRise' + lengthRise') with h5 | h5
            · exact .inr (.inr (.inr (.inr ⟨hj, h2, h5, .inr h4⟩)))
            · exact .inr (.inr (.inl ⟨hj, h2, h3, h5, h4⟩))
  · rintro i j ⟨h1, h2, h3⟩ hij
    have := index_le hd hij
    refine ⟨by omega, by linarith, fun h4 => h3 ⟨by linarith, ?_⟩⟩
    have : (i : ℝ) * d = j * d := by linarith [h4.1]
    rw [← this]
    exact h4.2
  · exact fun i j k hi hk h1 h2 => ⟨by have := hk.1; omega, hi.2.1.trans (index_le hd h1), (index_le hd h2).trans hk.2.2⟩
  · rintro i j ⟨h1, h2, h3, h4, h5⟩ hij hj
    have := index_le hd hij
    exact ⟨hj, by linarith, by linarith, by linarith, by linarith⟩

end Qtune.Evaluator.Fit
