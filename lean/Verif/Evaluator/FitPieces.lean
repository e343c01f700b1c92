import Mathlib.Analysis.Convex.SpecificFunctions.Basic
import Verif.Evaluator.FitModel

/-!
# Curves that consist of exponential and straight pieces

Lemmas for C143: measured points determine the time constants of the pieces.
-/

namespace Qtune.Evaluator.Fit

/-- On the points with indices in `S` at the times `j * d`, the values are an exponential decay with the time constant `t`. -/
def DecaysOn (d : ℝ) (f : Nat → ℝ) (t : ℝ) (S : Set Nat) : Prop :=
  ∃ a b : ℝ, ∀ j ∈ S, f j = a + b * Real.exp (-(j * d) / t)

/-- On the points with indices in `S` the values are on a straight line. -/
def StraightOn (d : ℝ) (f : Nat → ℝ) (S : Set Nat) : Prop :=
  ∃ a b : ℝ, ∀ j ∈ S, f j = a + b * (j * d)

theorem exp_le_of_lt {d t : ℝ} (hd : 0 < d) (ht : 0 ≤ t) {i j : Nat} (h : i < j) :
    Real.exp (-(j * d) / t) ≤ Real.exp (-(i * d) / t) := by
  apply Real.exp_le_exp.2
  apply div_le_div_of_nonneg_right _ ht
  have : (i : ℝ) < j := by exact_mod_cast h
  nlinarith

theorem exp_lt_of_lt {d t : ℝ} (hd : 0 < d) (ht : 0 < t) {i j : Nat} (h : i < j) :
    Real.exp (-(j * d) / t) < Real.exp (-(i * d) / t) := by
  apply Real.exp_lt_exp.2
  apply div_lt_div_of_pos_right _ ht
  have : (i : ℝ) < j := by exact_mod_cast h
  nlinarith

/-- A decay does not rise and fall. -/
theorem DecaysOn.monotone {d t : ℝ} {f : Nat → ℝ} {S : Set Nat} (h : DecaysOn d f t S) (hd : 0 < d) (ht : 0 ≤ t) {i j k l : Nat}
    (hi : i ∈ S) (hj : j ∈ S) (hk : k ∈ S) (hl : l ∈ S) (hij : i < j) (hkl : k < l) : 0 ≤ (f j - f i) * (f l - f k) := by
  obtain ⟨a, b, hf⟩ := h
  rw [hf i hi, hf j hj, hf k hk, hf l hl]
  have h1 := exp_le_of_lt hd ht hij
  have h2 := exp_le_of_lt hd ht hkl
  have : (a + b * Real.exp (-(j * d) / t) - (a + b * Real.exp (-(i * d) / t))) *
      (a + b * Real.exp (-(l * d) / t) - (a + b * Real.exp (-(k * d) / t))) =
      b ^ 2 * ((Real.exp (-(i * d) / t) - Real.exp (-(j * d) / t)) * (Real.exp (-(k * d) / t) - Real.exp (-(l * d) / t))) := by ring
  rw [this]
  exact mul_nonneg (sq_nonneg b) (mul_nonneg (by linarith) (by linarith))

/-- Three consecutive points determine the time constant. -/
theorem DecaysOn.time_eq {d t t' : ℝ} {f : Nat → ℝ} {S : Set Nat} (h : DecaysOn d f t' S) (hd : 0 < d) (ht : 0 < t) {i : Nat}
    (h0 : i ∈ S) (h1 : i + 1 ∈ S) (h2 : i + 2 ∈ S) {a b : ℝ} (hb : b ≠ 0)
    (hf : ∀ j, i ≤ j → j ≤ i + 2 → f j = a + b * Real.exp (-(j * d) / t)) : t' = t := by
  obtain ⟨a', b', hf'⟩ := h
  have step : ∀ (s : ℝ) (k : Nat), Real.exp (-((k + 1 : Nat) * d) / s) = Real.exp (-d / s) * Real.exp (-(k * d) / s) := by
    intro s k
    rw [← Real.exp_add]
    congr 1
    push_cast
    ring
  have e0 := (hf' i h0).symm.trans (hf i (by omega) (by omega))
  have e1 := (hf' (i + 1) h1).symm.trans (hf (i + 1) (by omega) (by omega))
  have e2 := (hf' (i + 2) h2).symm.trans (hf (i + 2) (by omega) (by omega))
  rw [step t (i + 1), step t' (i + 1)] at e2
  rw [step t i, step t' i] at e1 e2
  have hpos := Real.exp_pos (-(i * d) / t)
  have hq : Real.exp (-d / t) < 1 := by
    rw [Real.exp_lt_one_iff]
    exact div_neg_of_neg_of_pos (by linarith) ht
  generalize Real.exp (-(i * d) / t) = E at *
  generalize Real.exp (-(i * d) / t') = E' at *
  have hqq : Real.exp (-d / t') = Real.exp (-d / t) := by
    generalize Real.exp (-d / t) = q at *
    generalize Real.exp (-d / t') = q' at *
    have d1 : b' * E' * (q' - 1) = b * E * (q - 1) := by linarith
    have d2 : q' * (b' * E' * (q' - 1)) = q * (b * E * (q - 1)) := by linarith
    rw [d1] at d2
    have hne : b * E * (q - 1) ≠ 0 := mul_ne_zero (mul_ne_zero hb hpos.ne') (by linarith)
    exact mul_right_cancel₀ hne d2
  have := Real.exp_injective hqq
  by_cases h0 : t' = 0
  · rw [h0, div_zero] at this
    have : -d / t < 0 := div_neg_of_neg_of_pos (by linarith) ht
    linarith
  · rw [div_eq_div_iff h0 ht.ne'] at this
    have : -d * (t - t') = 0 := by linarith
    rcases mul_eq_zero.1 this with h | h
    · linarith
    · linarith

/-- Three points of a decay are not on a straight line. -/
theorem StraightOn.not_three {d t : ℝ} {f : Nat → ℝ} {S : Set Nat} (h : StraightOn d f S) (hd : 0 < d) (ht : 0 < t) {i j k : Nat}
    (hi : i ∈ S) (hj : j ∈ S) (hk : k ∈ S) (hij : i < j) (hjk : j < k) {a b : ℝ} (hb : b ≠ 0)
    (hf : ∀ l, i ≤ l → l ≤ k → f l = a + b * Real.exp (-(l * d) / t)) : False := by
  obtain ⟨a', b', hf'⟩ := h
  have e0 := (hf' i hi).symm.trans (hf i (by omega) (by omega))
  have e1 := (hf' j hj).symm.trans (hf j (by omega) (by omega))
  have e2 := (hf' k hk).symm.trans (hf k (by omega) (by omega))
  have hij' : (i : ℝ) * d < j * d := by
    have : (i : ℝ) < j := by exact_mod_cast hij
    nlinarith
  have hjk' : (j : ℝ) * d < k * d := by
    have : (j : ℝ) < k := by exact_mod_cast hjk
    nlinarith
  generalize (i : ℝ) * d = x at *
  generalize (j : ℝ) * d = y at *
  generalize (k : ℝ) * d = z at *
  have hs := strictConvexOn_exp.slope_strict_mono_adjacent (x := -z / t) (y := -y / t) (z := -x / t) (Set.mem_univ _)
    (Set.mem_univ _) (div_lt_div_of_pos_right (by linarith) ht) (div_lt_div_of_pos_right (by linarith) ht)
  generalize Real.exp (-x / t) = X at *
  generalize Real.exp (-y / t) = Y at *
  generalize Real.exp (-z / t) = Z at *
  have h1 : -y / t - -z / t = (z - y) / t := by ring
  have h2 : -x / t - -y / t = (y - x) / t := by ring
  rw [h1, h2, div_lt_div_iff₀ (div_pos (by linarith) ht) (div_pos (by linarith) ht), mul_div_assoc', mul_div_assoc',
    div_lt_div_iff_of_pos_right ht] at hs
  have e3 : b * ((Y - Z) * (y - x)) = b * ((X - Y) * (z - y)) := by
    have u1 : b * (Y - Z) = b' * (y - z) := by linarith
    have u2 : b * (X - Y) = b' * (x - y) := by linarith
    calc b * ((Y - Z) * (y - x)) = b * (Y - Z) * (y - x) := by ring
      _ = b' * (y - z) * (y - x) := by rw [u1]
      _ = b' * (x - y) * (z - y) := by ring
      _ = b * (X - Y) * (z - y) := by rw [u2]
      _ = b * ((X - Y) * (z - y)) := by ring
  exact hs.ne (mul_left_cancel₀ hb e3)

open Classical in
/-- Seven consecutive points of a decay, on two straight lines and on an interval `G`: three consecutive points are in the interval. -/
theorem three_consecutive {d t : ℝ} {f : Nat → ℝ} {L₁ L₂ G : Set Nat} (h₁ : StraightOn d f L₁) (h₂ : StraightOn d f L₂)
    (hd : 0 < d) (ht : 0 < t) {m : Nat} {a b : ℝ} (hb : b ≠ 0)
    (hf : ∀ j, m ≤ j → j < m + 7 → f j = a + b * Real.exp (-(j * d) / t))
    (hcover : ∀ j, m ≤ j → j < m + 7 → j ∈ L₁ ∨ j ∈ L₂ ∨ j ∈ G)
    (hG : ∀ i j k, i ∈ G → k ∈ G → i ≤ j → j ≤ k → j ∈ G) :
    ∃ i, m ≤ i ∧ i + 2 < m + 7 ∧ i ∈ G ∧ i + 1 ∈ G ∧ i + 2 ∈ G := by
  have hline : ∀ L : Set Nat, StraightOn d f L → ((Finset.Ico m (m + 7)).filter (· ∈ L)).card ≤ 2 := by
    intro L hL
    by_contra hc
    obtain ⟨i, j, k, hi, hj, hk, hij, hik, hjk⟩ := Finset.two_lt_card_iff.1 (not_le.1 hc)
    simp only [Finset.mem_filter, Finset.mem_Ico] at hi hj hk
    have key : ∀ i j k, (m ≤ i ∧ i < m + 7) ∧ i ∈ L → (m ≤ j ∧ j < m + 7) ∧ j ∈ L → (m ≤ k ∧ k < m + 7) ∧ k ∈ L →
        i < j → j < k → False := by
      intro i j k hi hj hk h1 h2
      exact hL.not_three hd ht hi.2 hj.2 hk.2 h1 h2 hb fun l hl hl' => hf l (by omega) (by omega)
    rcases lt_or_gt_of_ne hij with h1 | h1 <;> rcases lt_or_gt_of_ne hik with h2 | h2 <;>
      rcases lt_or_gt_of_ne hjk with h3 | h3
    · exact key i j k hi hj hk h1 h3
    · exact key i k j hi hk hj h2 h3
    · omega
    · exact key k i j hk hi hj h2 h1
    · exact key j i k hj hi hk h1 h2
    · omega
    · exact key j k i hj hk hi h3 h2
    · exact key k j i hk hj hi h3 h1
  have hsub : Finset.Ico m (m + 7) ⊆ ((Finset.Ico m (m + 7)).filter (· ∈ L₁) ∪ (Finset.Ico m (m + 7)).filter (· ∈ L₂)) ∪
      (Finset.Ico m (m + 7)).filter (· ∈ G) := by
    intro j hj
    have hj' := Finset.mem_Ico.1 hj
    simp only [Finset.mem_union, Finset.mem_filter, hj, true_and]
    rcases hcover j hj'.1 hj'.2 with h | h | h <;> simp [h]
  have hcard := Finset.card_le_card hsub
  have hu := Finset.card_union_le ((Finset.Ico m (m + 7)).filter (· ∈ L₁) ∪ (Finset.Ico m (m + 7)).filter (· ∈ L₂))
    ((Finset.Ico m (m + 7)).filter (· ∈ G))
  have hu' := Finset.card_union_le ((Finset.Ico m (m + 7)).filter (· ∈ L₁)) ((Finset.Ico m (m + 7)).filter (· ∈ L₂))
  have hl1 := hline L₁ h₁
  have hl2 := hline L₂ h₂
  rw [Nat.card_Ico] at hcard
  generalize hT : (Finset.Ico m (m + 7)).filter (· ∈ G) = T at hcard hu
  have h3 : 3 ≤ T.card := by omega
  have hne : T.Nonempty := Finset.card_pos.1 (by omega)
  have hmin := Finset.min'_mem T hne
  have hmax := Finset.max'_mem T hne
  have hspan : T.min' hne + 2 ≤ T.max' hne := by
    by_contra hlt
    have : T ⊆ Finset.Icc (T.min' hne) (T.max' hne) := fun j hj =>
      Finset.mem_Icc.2 ⟨Finset.min'_le T j hj, Finset.le_max' T j hj⟩
    have := Finset.card_le_card this
    rw [Nat.card_Icc] at this
    omega
  have hmem : ∀ j ∈ T, (m ≤ j ∧ j < m + 7) ∧ j ∈ G := by
    intro j hj
    rw [← hT] at hj
    simpa only [Finset.mem_filter, Finset.mem_Ico] using hj
  replace hmin := hmem _ hmin
  replace hmax := hmem _ hmax
  exact ⟨T.min' hne, hmin.1.1, by omega, hmin.2, hG _ _ _ hmin.2 hmax.2 (by omega) (by omega),
    hG _ _ _ hmin.2 hmax.2 (by omega) hspan⟩

/-- A curve of two decays with different signs, the first one of which begins after the end of a decay like the second one.  If
it consists of a decay with the time `tF'` up to a point, of a decay with the time `tR'` in an interval, of
a decay with the time `tF'` from a point on, and of two straight pieces, then these are the times of the curve. -/
theorem pieces_determined {d : ℝ} {f : Nat → ℝ} {tR tF tR' tF' : ℝ} (hd : 0 < d) (hR : 0 < tR) (hF : 0 < tF)
    (hR' : 0 ≤ tR') (hF' : 0 ≤ tF') {m e n : Nat} (hm : 1 < m) (hme : m + 9 ≤ e) (hen : e + 8 ≤ n)
    {aR bR aF bF : ℝ} (hsign : bR * bF < 0) (h01 : (f 1 - f 0) * bR > 0)
    (hM : ∀ j, m ≤ j → j < m + 9 → f j = aR + bR * Real.exp (-(j * d) / tR))
    (hE : ∀ j, e ≤ j → j < e + 8 → f j = aF + bF * Real.exp (-(j * d) / tF))
    {F G H L₁ L₂ : Set Nat} (hFd : DecaysOn d f tF' F) (hGd : DecaysOn d f tR' G) (hHd : DecaysOn d f tF' H)
    (h₁ : StraightOn d f L₁) (h₂ : StraightOn d f L₂)
    (hcover : ∀ j < n, j ∈ F ∨ j ∈ G ∨ j ∈ H ∨ j ∈ L₁ ∨ j ∈ L₂)
    (hFi : ∀ i j, j ∈ F → i ≤ j → i ∈ F) (hGi : ∀ i j k, i ∈ G → k ∈ G → i ≤ j → j ≤ k → j ∈ G)
    (hHi : ∀ i j, i ∈ H → i ≤ j → j < n → j ∈ H) : tR' = tR ∧ tF' = tF := by
  have hbR : bR ≠ 0 := by rintro rfl; simp at hsign
  have hbF : bF ≠ 0 := by rintro rfl; simp at hsign
  -- the signs of the differences
  have sM : ∀ i j, m ≤ i → i < j → j < m + 9 → (f j - f i) * bR < 0 := by
    intro i j h1 h2 h3
    rw [hM i h1 (by omega), hM j (by omega) h3]
    have h4 := exp_lt_of_lt hd hR h2
    have h5 : 0 < bR ^ 2 := by positivity
    have : (aR + bR * Real.exp (-(j * d) / tR) - (aR + bR * Real.exp (-(i * d) / tR))) * bR =
      -(bR ^ 2 * (Real.exp (-(i * d) / tR) - Real.exp (-(j * d) / tR))) := by ring
    rw [this]
    nlinarith [mul_pos h5 (sub_pos.2 h4)]
  have sE : ∀ i j, e ≤ i → i < j → j < e + 8 → (f j - f i) * bR > 0 := by
    intro i j h1 h2 h3
    rw [hE i h1 (by omega), hE j (by omega) h3]
    have h4 := exp_lt_of_lt hd hF h2
    have : (aF + bF * Real.exp (-(j * d) / tF) - (aF + bF * Real.exp (-(i * d) / tF))) * bR =
      -(bR * bF) * (Real.exp (-(i * d) / tF) - Real.exp (-(j * d) / tF)) := by ring
    rw [this]
    exact mul_pos (by linarith) (sub_pos.2 h4)
  have clash : ∀ {x y : ℝ}, x * bR > 0 → y * bR < 0 → 0 ≤ x * y → False := by
    intro x y hx hy hxy
    have h1 : x * y * (bR * bR) < 0 := by nlinarith [mul_pos_of_neg_of_neg (neg_lt_zero.2 hx) hy]
    nlinarith [mul_nonneg hxy (mul_self_nonneg bR)]
  have nF : ∀ j, m + 1 ≤ j → j ∉ F := by
    intro j hj hjF
    exact clash h01 (sM m (m + 1) (by omega) (by omega) (by omega)) (hFd.monotone hd hF' (hFi 0 j hjF (by omega))
      (hFi 1 j hjF (by omega)) (hFi m j hjF (by omega)) (hFi (m + 1) j hjF (by omega)) (by omega) (by omega))
  have nH : ∀ j, j ≤ m + 7 → j ∉ H := by
    intro j hj hjH
    exact clash (sE e (e + 1) (by omega) (by omega) (by omega)) (sM (m + 7) (m + 8) (by omega) (by omega) (by omega))
      (hHd.monotone hd hF' (hHi j e hjH (by omega) (by omega)) (hHi j (e + 1) hjH (by omega) (by omega))
        (hHi j (m + 7) hjH (by omega) (by omega)) (hHi j (m + 8) hjH (by omega) (by omega)) (by omega) (by omega))
  obtain ⟨i, i1, i2, g0, g1, g2⟩ := three_consecutive h₁ h₂ hd hR hbR (m := m + 1) (G := G)
    (fun j h1 h2 => hM j (by omega) (by omega)) (by
      intro j h1 h2
      rcases hcover j (by omega) with h | h | h | h | h
      · exact absurd h (nF j h1)
      · exact .inr (.inr h)
      · exact absurd h (nH j (by omega))
      · exact .inl h
      · exact .inr (.inl h)) hGi
  refine ⟨hGd.time_eq hd hR g0 g1 g2 hbR fun j h1 h2 => hM j (by omega) (by omega), ?_⟩
  have nG : ∀ j, e + 1 ≤ j → j ∉ G := by
    intro j hj hjG
    exact clash (sE e (e + 1) (by omega) (by omega) (by omega)) (sM i (i + 1) (by omega) (by omega) (by omega))
      (hGd.monotone hd hR' (hGi i e j g0 hjG (by omega) (by omega)) (hGi i (e + 1) j g0 hjG (by omega) (by omega)) g0 g1
        (by omega) (by omega))
  obtain ⟨k, k1, k2, e0, e1, e2⟩ := three_consecutive h₁ h₂ hd hF hbF (m := e + 1) (G := {j | j ∈ H ∧ j < n})
    (fun j h1 h2 => hE j (by omega) (by omega)) (by
      intro j h1 h2
      rcases hcover j (by omega) with h | h | h | h | h
      · exact absurd h (nF j (by omega))
      · exact absurd h (nG j h1)
      · exact .inr (.inr ⟨h, by omega⟩)
      · exact .inl h
      · exact .inr (.inl h)) (fun i j k hi hk h1 h2 => ⟨hHi i j hi.1 h1 (lt_of_le_of_lt h2 hk.2), lt_of_le_of_lt h2 hk.2⟩)
  exact hHd.time_eq hd hF e0.1 e1.1 e2.1 hbF fun j h1 h2 => hE j (by omega) (by omega)

end Qtune.Evaluator.Fit
