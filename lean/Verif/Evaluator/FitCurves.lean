import Verif.Evaluator.FitSpec

/-!
# The weights of the second fits and the functions that are fitted (C116, C117)
-/

namespace Qtune.Evaluator.Fit

open Classical

/-! ## C116: weights -/

theorem setSlice_length (a b : Int) (v : ℝ) (l : List ℝ) : (setSlice a b v l).length = l.length := by
  simp [setSlice]

theorem setSlice_get {a b : Int} {v : ℝ} {l : List ℝ} {j : Nat} {x : ℝ} (h : l[j]? = some x) :
    (setSlice a b v l)[j]? = some (if inSlice l.length a b j then v else x) := by
  simp [setSlice, List.getElem?_mapIdx, h]

/-- The weight of the `j`-th point, in terms of the position of the transition in points. -/
theorem weight_get {n : Nat} {ptp p : ℝ} {j : Nat} (hj : j < n) :
    (interDotWeights n ptp p)[j]? = some (
      if inSlice n (max 0 (pyInt ((p + ptp) / 2 / ptp * n) - 4)) (min (pyInt ((p + ptp) / 2 / ptp * n) + 5) (n - 1)) j
        then 1 / 10
      else if inSlice n (max 0 (pyInt ((p + ptp) / 2 / ptp * n) - 15))
        (min (pyInt ((p + ptp) / 2 / ptp * n) - 5) (n - 1)) j then 10
      else 1) := by
  have h1 : (List.replicate n (1 : ℝ))[j]? = some 1 := by rw [List.getElem?_replicate, if_pos hj]
  unfold interDotWeights
  dsimp only
  rw [setSlice_get (setSlice_get h1), setSlice_length, List.length_replicate]

/-- The point of a scan around 0 that is next to `p`, compared to the position that the code calculates: they differ by
`p * n / (4 * R)`, up to a point and a half. -/
theorem nearest_point {R p : ℝ} {n j : Nat} (hn : 2 ≤ n) (hR : 0 < R) (hp : |p| ≤ R) (hj : Nearest 0 R n j p) :
    0 ≤ pyInt ((p + 2 * R) / 2 / (2 * R) * n) ∧
    p * n / (4 * R) - 3 / 2 ≤ (j : ℝ) - pyInt ((p + 2 * R) / 2 / (2 * R) * n) ∧
    (j : ℝ) - pyInt ((p + 2 * R) / 2 / (2 * R) * n) < p * n / (4 * R) + 3 / 2 ∧
    (j : ℝ) ≤ (p + R) * (n - 1) / (2 * R) + 1 / 2 := by
  obtain ⟨hp1, hp2⟩ := abs_le.1 hp
  have hn1 : (1 : ℝ) ≤ (n : ℝ) - 1 := by
    have : (2 : ℝ) ≤ n := by exact_mod_cast hn
    linarith
  have hn0 : (0 : ℝ) < (n : ℝ) - 1 := by linarith
  -- the exact position in points
  set s : ℝ := (p + R) * (n - 1) / (2 * R) with hs
  have hs0 : 0 ≤ s := div_nonneg (mul_nonneg (by linarith) hn0.le) (by linarith)
  have hs1 : s ≤ n - 1 := by rw [hs, div_le_iff₀ (by linarith)]; nlinarith
  have hpt : ∀ k : Nat, scanPoint 0 R n k - p = (2 * R / ((n : ℝ) - 1)) * (k - s) := by
    intro k
    unfold scanPoint
    rw [hs]
    field_simp
    ring
  have hstep : 0 < 2 * R / ((n : ℝ) - 1) := div_pos (by linarith) hn0
  -- the nearest point is at most half a point away
  have hjs : |(j : ℝ) - s| ≤ 1 / 2 := by
    have hk : ∃ k : Nat, k < n ∧ |(k : ℝ) - s| ≤ 1 / 2 := by
      have hfl := Nat.floor_le hs0
      have hfl' := Nat.lt_floor_add_one s
      by_cases hc : s - ⌊s⌋₊ ≤ 1 / 2
      · refine ⟨⌊s⌋₊, ?_, abs_le.2 ⟨by linarith, by linarith⟩⟩
        have : ((⌊s⌋₊ : ℕ) : ℝ) < (n : ℝ) := by linarith
        exact_mod_cast this
      · refine ⟨⌊s⌋₊ + 1, ?_, abs_le.2 ⟨by push_cast; linarith, by push_cast; linarith⟩⟩
        have h1 : ((⌊s⌋₊ : ℕ) : ℝ) < (n : ℝ) - 1 := by linarith
        have h2 : ((⌊s⌋₊ + 1 : ℕ) : ℝ) < (n : ℝ) := by push_cast; linarith
        exact_mod_cast h2
    obtain ⟨k, hkn, hk⟩ := hk
    have := hj.2 k hkn
    rw [hpt, hpt, abs_mul, abs_mul] at this
    have := le_of_mul_le_mul_left this (abs_pos.2 hstep.ne')
    linarith
  obtain ⟨hj1, hj2⟩ := abs_le.1 hjs
  -- the position of the code
  set t : ℝ := (p + 2 * R) / 2 / (2 * R) * n with ht
  have ht0 : 0 ≤ t := by
    rw [ht]
    exact mul_nonneg (div_nonneg (by linarith) (by linarith)) (by linarith)
  have hpi : pyInt t = ⌊t⌋ := by unfold pyInt; rw [if_pos ht0]
  rw [hpi]
  have hf1 := Int.floor_le t
  have hf2 := Int.lt_floor_add_one t
  have hdiff : s - t = p * n / (4 * R) - (p + R) / (2 * R) := by
    rw [hs, ht]; field_simp; ring
  have hfr0 : 0 ≤ (p + R) / (2 * R) := div_nonneg (by linarith) (by linarith)
  have hfr1 : (p + R) / (2 * R) ≤ 1 := by rw [div_le_one (by linarith)]; linarith
  refine ⟨Int.floor_nonneg.2 ht0, by linarith, by linarith, by linarith⟩

/-- C116 (partial): the second fit of `InterDotTCByLineScan` counts the point next to the transition with the smallest
standard deviation, if the scan is made around 0, has at least 12 points and the transition is within ten half-widths
per number of points (of the default 100 points: within a tenth of the range) from 0.  Missing: other positions, see
`emphasis_refuted`. -/
theorem emphasis_partial {R p : ℝ} {n j : Nat} (hn : 12 ≤ n) (hR : 0 < R) (hp : |p| * n ≤ 10 * R)
    (hj : Nearest 0 R n j p) :
    (interDotWeights n (2 * R) p)[j]? = some (1 / 10) ∧
      ∀ (k : Nat) (w : ℝ), (interDotWeights n (2 * R) p)[k]? = some w → 1 / 10 ≤ w := by
  have hn' : (12 : ℝ) ≤ n := by exact_mod_cast hn
  have hpR : |p| ≤ R := by
    have h0 := abs_nonneg p
    nlinarith
  obtain ⟨h0, h1, h2, h3⟩ := nearest_point (by omega) hR hpR hj
  obtain ⟨hp1, hp2⟩ := abs_le.1 hpR
  have hd : |p * n / (4 * R)| ≤ 5 / 2 := by
    rw [abs_div, abs_mul, Nat.abs_cast, abs_of_pos (by linarith : (0 : ℝ) < 4 * R), div_le_iff₀ (by linarith)]
    linarith
  obtain ⟨hd1, hd2⟩ := abs_le.1 hd
  set t := pyInt ((p + 2 * R) / 2 / (2 * R) * n) with ht
  have c1 : (t : ℝ) - 4 ≤ j := by linarith
  have c1' : t - 4 ≤ (j : Int) := by exact_mod_cast c1
  have c2 : (j : ℝ) < t + 5 := by linarith
  have c2' : (j : Int) < t + 5 := by exact_mod_cast c2
  have c3 : (j : ℝ) < n - 1 := by
    refine lt_of_le_of_lt h3 ?_
    have e1 : p * n ≤ 10 * R := le_trans (by gcongr; exact le_abs_self p) hp
    have e2 : (p + R) * (n - 1) / (2 * R) ≤ 5 - 5 / n + (n - 1) / 2 := by
      rw [div_le_iff₀ (by linarith)]
      have e3 : p ≤ 10 * R / n := by rw [le_div_iff₀ (by linarith)]; exact e1
      have e4 : p * ((n : ℝ) - 1) ≤ 10 * R / n * (n - 1) := by
        exact mul_le_mul_of_nonneg_right e3 (by linarith)
      have e5 : 10 * R / n * ((n : ℝ) - 1) = (5 - 5 / n) * (2 * R) := by field_simp; ring
      nlinarith
    have e6 : (0 : ℝ) < 5 / n := div_pos (by norm_num) (by linarith)
    linarith
  have c3' : (j : Int) < n - 1 := by
    have : (j : ℝ) + 1 < n := by linarith
    have : ((j + 1 : ℕ) : ℝ) < (n : ℝ) := by push_cast; exact this
    have : j + 1 < n := by exact_mod_cast this
    omega
  constructor
  · rw [weight_get hj.1, if_pos]
    rw [← ht]
    unfold inSlice
    dsimp only
    rw [if_neg (by omega), if_neg (by omega)]
    omega
  · intro k w hw
    have hk : k < n := by
      have := (List.getElem?_eq_some_iff.1 hw).1
      simpa [interDotWeights, setSlice_length] using this
    rw [weight_get hk] at hw
    cases hw
    split
    · norm_num
    · split <;> norm_num

example : |(1 / 20 : ℝ)| * (100 : ℕ) ≤ 10 * 1 := by
  rw [abs_of_pos (by norm_num)]; norm_num

/-- There is a nearest point. -/
theorem exists_nearest (c R p : ℝ) {n : Nat} (hn : 0 < n) : ∃ j, Nearest c R n j p := by
  obtain ⟨j, hj, hmin⟩ := Finset.exists_min_image (Finset.range n) (fun j => |scanPoint c R n j - p|)
    ⟨0, Finset.mem_range.2 hn⟩
  exact ⟨j, Finset.mem_range.1 hj, fun k hk => hmin k (Finset.mem_range.2 hk)⟩

/-- C116 is false: the position is calculated as if it were twice as close to the centre of the scan.  If the transition
is further to the right than `26 * R / n`, the point next to it is counted like any other one; if it is between
`26 * R / n` and `54 * R / n` to the left, it is counted a hundredth as much as the emphasised ones, less than
any other. -/
theorem emphasis_refuted {R p : ℝ} {n j : Nat} (hn : 2 ≤ n) (hR : 0 < R) (hp : |p| ≤ R) (hj : Nearest 0 R n j p) :
    (26 * R ≤ p * n → (interDotWeights n (2 * R) p)[j]? = some 1) ∧
    (-54 * R ≤ p * n → p * n ≤ -26 * R → (interDotWeights n (2 * R) p)[j]? = some 10) := by
  obtain ⟨h0, h1, h2, h3⟩ := nearest_point (by omega) hR hp hj
  set t := pyInt ((p + 2 * R) / 2 / (2 * R) * n) with ht
  constructor
  · intro hpn
    have hd : 13 / 2 ≤ p * n / (4 * R) := by rw [le_div_iff₀ (by linarith)]; linarith
    have c1 : (t : ℝ) + 5 ≤ j := by linarith
    have c1' : t + 5 ≤ (j : Int) := by exact_mod_cast c1
    have hjn := hj.1
    have c2 : 13 ≤ t := by
      have hp2 := (abs_le.1 hp).2
      have e1 : (26 : ℝ) ≤ n := by
        by_contra h
        have h0 : (0 : ℝ) ≤ n := by positivity
        nlinarith
      have e2 : (13 : ℝ) ≤ (p + 2 * R) / 2 / (2 * R) * n := by
        have : (p + 2 * R) / 2 / (2 * R) * n = p * n / (4 * R) + n / 2 := by field_simp; ring
        linarith
      rw [ht]
      unfold pyInt
      rw [if_pos (by linarith)]
      exact Int.le_floor.2 (by exact_mod_cast e2)
    rw [weight_get hj.1, ← ht, if_neg, if_neg]
    · unfold inSlice
      dsimp only
      split <;> split <;> omega
    · unfold inSlice
      dsimp only
      split <;> split <;> omega
  · intro hlo hhi
    have hd1 : p * n / (4 * R) ≤ -13 / 2 := by rw [div_le_iff₀ (by linarith)]; linarith
    have hd2 : -27 / 2 ≤ p * n / (4 * R) := by rw [le_div_iff₀ (by linarith)]; linarith
    have c1 : (j : ℝ) < t - 5 := by linarith
    have c1' : (j : Int) < t - 5 := by exact_mod_cast c1
    have c2 : (t : ℝ) - 15 ≤ j := by linarith
    have c2' : t - 15 ≤ (j : Int) := by exact_mod_cast c2
    have hjn := hj.1
    obtain ⟨hp1, hp2⟩ := abs_le.1 hp
    have c3 : (j : Int) < n - 1 := by
      have hn' : (2 : ℝ) ≤ n := by exact_mod_cast hn
      have hp0 : p < 0 := by
        by_contra h
        have : 0 ≤ p * n := mul_nonneg (not_lt.1 h) (by linarith)
        linarith
      have e0 : (p + R) * (n - 1) / (2 * R) ≤ (n - 1) / 2 - 13 / 2 := by
        rw [div_le_iff₀ (by linarith)]
        nlinarith
      have : (j : ℝ) + 1 < n := by linarith
      have : ((j + 1 : ℕ) : ℝ) < (n : ℝ) := by push_cast; exact this
      have : j + 1 < n := by exact_mod_cast this
      omega
    rw [weight_get hj.1, ← ht, if_neg, if_pos]
    · unfold inSlice
      dsimp only
      rw [if_neg (by omega), if_neg (by omega)]
      omega
    · unfold inSlice
      dsimp only
      split <;> split <;> omega

/-- With the default settings (100 points from -2e-3 to 2e-3) and a transition at 1e-3, and at -8e-4. -/
example : 26 * (2e-3 : ℝ) ≤ 1e-3 * (100 : ℕ) ∧ -54 * (2e-3 : ℝ) ≤ -8e-4 * (100 : ℕ) ∧
    -8e-4 * ((100 : ℕ) : ℝ) ≤ -26 * 2e-3 := by
  norm_num

/-- C116 is false of `LeadTunnelTimePrefitVersion` too: wherever within the period of 4 µs the first fit finds the two
edges, the points 3, 4, ... (a third of all) are emphasised in the second fit and no others. -/
theorem emphasis_edges_refuted {n : Nat} {rise fall : ℝ} (h1 : 0 ≤ rise) (h2 : rise < 4e-6) (h3 : 0 ≤ fall)
    (h4 : fall < 4e-6) {j : Nat} (hj : j < n) :
    (prefitWeights n rise fall)[j]? = some (if 3 ≤ j ∧ (j : ℝ) < 3 + ⌊(35 / 100 : ℝ) * n⌋ then 1 / 10 else 1) := by
  have key : ∀ x : ℝ, 0 ≤ x → x < 4e-6 → pyInt (x / 4e-6 + 3) = 3 := by
    intro x hx0 hx1
    have a : 0 ≤ x / 4e-6 := div_nonneg hx0 (by norm_num)
    have b : x / 4e-6 < 1 := by rw [div_lt_one (by norm_num)]; exact hx1
    unfold pyInt
    rw [if_pos (by linarith), Int.floor_eq_iff]
    constructor <;> push_cast <;> linarith
  have hm : pyInt (35 / 100 * n) = ⌊(35 / 100 : ℝ) * n⌋ := by
    unfold pyInt; rw [if_pos (by positivity)]
  have hm0 : 0 ≤ ⌊(35 / 100 : ℝ) * n⌋ := Int.floor_nonneg.2 (by positivity)
  have hmn : ⌊(35 / 100 : ℝ) * n⌋ ≤ n := by
    have := Int.floor_le ((35 / 100 : ℝ) * n)
    have h0 : (0 : ℝ) ≤ n := by positivity
    have : ((⌊(35 / 100 : ℝ) * n⌋ : Int) : ℝ) ≤ (n : ℝ) := by linarith
    exact_mod_cast this
  have hr : (List.replicate n (1 : ℝ))[j]? = some 1 := by rw [List.getElem?_replicate, if_pos hj]
  unfold prefitWeights
  dsimp only
  rw [setSlice_get (setSlice_get hr), setSlice_length, List.length_replicate, key _ h1 h2, key _ h3 h4, hm]
  have hiff : inSlice n 3 (3 + ⌊(35 / 100 : ℝ) * n⌋) j ↔ 3 ≤ j ∧ (j : ℝ) < 3 + ⌊(35 / 100 : ℝ) * n⌋ := by
    have hc : ((j : ℝ) < 3 + (⌊(35 / 100 : ℝ) * n⌋ : Int)) ↔ ((j : Int) < 3 + ⌊(35 / 100 : ℝ) * n⌋) := by
      constructor <;> intro h <;> exact_mod_cast h
    rw [hc]
    unfold inSlice
    dsimp only
    generalize ⌊(35 / 100 : ℝ) * n⌋ = m at *
    rw [if_neg (by omega), if_neg (by omega)]
    omega
  by_cases h : inSlice n 3 (3 + ⌊(35 / 100 : ℝ) * n⌋) j
  · rw [if_pos h, if_pos (hiff.1 h)]
  · rw [if_neg h, if_neg h, if_neg (fun h' => h (hiff.2 h'))]

end Qtune.Evaluator.Fit
