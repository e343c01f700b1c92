import Verif.Signal.Spec
import Mathlib.Algebra.Order.BigOperators.Group.List
import Mathlib.Tactic.Linarith
import Mathlib.Tactic.FieldSimp
import Mathlib.Tactic.Positivity
import Mathlib.Tactic.Ring
import Mathlib.Tactic.NormNum

/-!
# Properties of the signal processing

* C67: `lead_index_ok`, `lead_index_step_partial`, `lead_index_step_refuted`
* C68: `moving_average_partial`, `moving_average_refuted`
-/

namespace Qtune.Signal

theorem argmax_none {l : List ℝ} : argmax l = none ↔ l = [] := by
  cases l with
  | nil => simp [argmax]
  | cons x xs =>
    simp only [argmax, reduceCtorEq, iff_false]
    split
    · simp
    · split <;> simp

theorem argmax_spec {l : List ℝ} {i : Nat} (h : argmax l = some i) : FirstMax (fun j => l.getD j 0) l.length i := by
  induction l generalizing i with
  | nil => simp [argmax] at h
  | cons x xs ih =>
    unfold argmax at h
    split at h
    · rename_i hn
      rw [argmax_none] at hn
      subst hn
      cases h
      refine ⟨by simp, ?_, by simp⟩
      intro j hj
      have : j = 0 := by simpa using hj
      subst this; exact le_refl _
    · rename_i j hj
      obtain ⟨h1, h2, h3⟩ := ih hj
      split at h
      · rename_i hlt
        cases h
        refine ⟨by simpa using h1, ?_, ?_⟩
        · intro k hk
          cases k with
          | zero => simpa using hlt.le
          | succ k => simpa using h2 k (by simpa using hk)
        · intro k hk
          cases k with
          | zero => simpa using hlt
          | succ k => simpa using h3 k (by omega)
      · rename_i hlt
        cases h
        refine ⟨by simp, ?_, by simp⟩
        intro k hk
        cases k with
        | zero => simp
        | succ k =>
          have := h2 k (by simpa using hk)
          simp only [List.getD_cons_succ, List.getD_cons_zero]
          exact this.trans (not_lt.mp hlt)

theorem FirstMax.unique {f g : Nat → ℝ} {m i j : Nat} (hfg : ∀ k < m, f k = g k) (hi : FirstMax f m i)
    (hj : FirstMax g m j) : i = j := by
  obtain ⟨h1, h2, h3⟩ := hi
  obtain ⟨k1, k2, k3⟩ := hj
  rcases lt_trichotomy i j with h | h | h
  · have a := k3 i h
    have b := h2 j k1
    rw [hfg i h1, hfg j k1] at b
    linarith
  · exact h
  · have a := h3 j h
    have b := k2 i h1
    rw [← hfg i h1, ← hfg j k1] at b
    linarith

/-- The loop in place gives the differences of the original data. -/
theorem subtractShifted_spec (w : Nat) (data : List ℝ) : ∀ m, m + w ≤ data.length →
    (subtractShifted w m data).length = data.length ∧
    (∀ i < m, (subtractShifted w m data).getD i 0 = data.getD i 0 - data.getD (i + w) 0) ∧
    ∀ i, m ≤ i → (subtractShifted w m data).getD i 0 = data.getD i 0 := by
  intro m
  induction m with
  | zero => intro _; simp [subtractShifted]
  | succ m ih =>
    intro hm
    obtain ⟨h1, h2, h3⟩ := ih (by omega)
    have hstep : subtractShifted w (m + 1) data = (subtractShifted w m data).set m
        ((subtractShifted w m data).getD m 0 - (subtractShifted w m data).getD (m + w) 0) := by
      unfold subtractShifted
      rw [List.range_succ, List.foldl_append]
      rfl
    rw [hstep]
    refine ⟨by simp [h1], ?_, ?_⟩
    · intro i hi
      by_cases him : i = m
      · subst him
        rw [List.getD_eq_getElem?_getD, List.getElem?_set_self (by omega), h3 i (le_refl _), h3 (i + w) (by omega)]
        rfl
      · rw [List.getD_eq_getElem?_getD, List.getElem?_set_ne (by omega), ← List.getD_eq_getElem?_getD]
        exact h2 i (by omega)
    · intro i hi
      rw [List.getD_eq_getElem?_getD, List.getElem?_set_ne (by omega), ← List.getD_eq_getElem?_getD]
      exact h3 i (by omega)

theorem roundHalf_le (w : Nat) : roundHalf w ≤ w := by unfold roundHalf; split <;> (try split) <;> omega

/-- `roundHalf` is `w / 2` rounded. -/
theorem roundHalf_near (w : Nat) : 2 * roundHalf w ≤ w + 1 ∧ w ≤ 2 * roundHalf w + 1 := by
  unfold roundHalf; split <;> (try split) <;> omega

theorem getD_map_abs (l : List ℝ) (i : Nat) : (l.map abs).getD i 0 = |l.getD i 0| := by
  by_cases h : i < l.length
  · simp [List.getD_eq_getElem?_getD, h]
  · simp [List.getD_eq_getElem?_getD, h]

theorem getD_take (l : List ℝ) {i n : Nat} (h : i < n) : (l.take n).getD i 0 = l.getD i 0 := by
  rw [List.getD_eq_getElem?_getD, List.getD_eq_getElem?_getD, List.getElem?_take_of_lt h]

/-- C67: the function succeeds exactly if the window is shorter than the data by at least two points (and then there
are at least two points); the result is in range, and it is half a window after the first position where the jump
over the window is maximal. -/
theorem lead_index_ok (data : List ℝ) (w : Nat) :
    ((∃ r, leadIndex data w = .ok r) ↔ w + 2 ≤ data.length) ∧
    ∀ r, leadIndex data w = .ok r → r < data.length ∧
      ∃ i, FirstMax (jump data w) (data.length - w - 1) i ∧ r = i + roundHalf w := by
  have key : ∀ r, leadIndex data w = .ok r → w + 2 ≤ data.length ∧ r < data.length ∧
      ∃ i, FirstMax (jump data w) (data.length - w - 1) i ∧ r = i + roundHalf w := by
    intro r hr
    unfold leadIndex at hr
    split at hr
    · cases hr
    · dsimp only at hr
      split at hr
      · cases hr
      · rename_i i hi
        cases hr
        have hs := argmax_spec hi
        obtain ⟨s1, s2, s3⟩ := hs
        have hlt : i < data.length - w - 1 := by
          have := s1
          simp at this
          omega
        obtain ⟨l1, l2, l3⟩ := subtractShifted_spec w data (data.length - w - 1) (by omega)
        have hlen : ((List.map abs (subtractShifted w (data.length - w - 1) data)).take
            (data.length - w - 1)).length = data.length - w - 1 := by
          simp [l1]; omega
        have hval : ∀ j < data.length - w - 1, ((List.map abs (subtractShifted w (data.length - w - 1) data)).take
            (data.length - w - 1)).getD j 0 = jump data w j := by
          intro j hj
          rw [getD_take _ hj, getD_map_abs, l2 j hj]
          rfl
        refine ⟨by omega, by have := roundHalf_le w; omega, i, ⟨hlt, ?_, ?_⟩, rfl⟩
        · intro j hj
          rw [← hval j hj, ← hval i hlt]
          exact s2 j (by rw [hlen]; exact hj)
        · intro j hj
          rw [← hval j (by omega), ← hval i hlt]
          exact s3 j hj
  refine ⟨⟨fun ⟨r, hr⟩ => (key r hr).1, fun h => ?_⟩, fun r hr => (key r hr).2⟩
  unfold leadIndex
  rw [if_neg (by omega)]
  dsimp only
  split
  · rename_i hn
    rw [argmax_none] at hn
    have := congrArg List.length hn
    obtain ⟨l1, -, -⟩ := subtractShifted_spec w data (data.length - w - 1) (by omega)
    simp only [List.length_take, List.length_map, l1, List.length_nil] at this
    omega
  · exact ⟨_, rfl⟩

theorem cleanStep_length {n k : Nat} (h : k ≤ n) (a b : ℝ) : (cleanStep n k a b).length = n := by
  simp [cleanStep]; omega

theorem cleanStep_getD {n k : Nat} (h : k ≤ n) (a b : ℝ) {i : Nat} (hi : i < n) :
    (cleanStep n k a b).getD i 0 = if i < k then a else b := by
  unfold cleanStep
  rw [List.getD_eq_getElem?_getD]
  split
  · rename_i hk
    rw [List.getElem?_append_left (by simpa using hk), List.getElem?_replicate_of_lt hk]
    rfl
  · rename_i hk
    rw [List.getElem?_append_right (by simpa using hk), List.getElem?_replicate_of_lt (by simp; omega)]
    rfl

/-- C67 (partial): for a clean step at position `k`, at least two points before the end, the result is within one
window of `k`.  Missing: a step at the last point, see `lead_index_step_refuted`. -/
theorem lead_index_step_partial {n k w : Nat} {a b : ℝ} (hab : a ≠ b) (hk0 : 0 < k) (hk : k + 2 ≤ n) (hw : 0 < w)
    (hwn : w + 2 ≤ n) :
    ∃ r, leadIndex (cleanStep n k a b) w = .ok r ∧ k ≤ r + w ∧ r ≤ k + w := by
  have hl := cleanStep_length (show k ≤ n by omega) a b
  obtain ⟨r, hr⟩ := (lead_index_ok (cleanStep n k a b) w).1.mpr (by omega)
  obtain ⟨-, i, hi, rfl⟩ := (lead_index_ok (cleanStep n k a b) w).2 r hr
  rw [hl] at hi
  refine ⟨_, hr, ?_⟩
  have hj : ∀ j < n - w - 1, jump (cleanStep n k a b) w j = if j < k ∧ k ≤ j + w then |a - b| else 0 := by
    intro j hj
    unfold jump
    rw [cleanStep_getD (by omega) a b (by omega), cleanStep_getD (by omega) a b (by omega)]
    by_cases h1 : j < k
    · by_cases h2 : j + w < k
      · simp [h1, h2]
      · rw [if_pos h1, if_neg h2, if_pos ⟨h1, by omega⟩]
    · rw [if_neg h1, if_neg (by omega), if_neg (by omega)]; simp
  have hpos : 0 < |a - b| := abs_pos.mpr (sub_ne_zero.mpr hab)
  -- the jump is seen at this position
  obtain ⟨i1, i2, i3⟩ := hi
  have hm := i2 (k - w) (by omega)
  rw [hj _ i1, hj (k - w) (by omega), if_pos (by omega)] at hm
  have : i < k ∧ k ≤ i + w := by
    by_contra hc
    rw [if_neg hc] at hm
    linarith
  have := roundHalf_le w
  omega

/-- Ten points with a step at 4. -/
example : ∃ r, leadIndex (cleanStep 10 4 0 1) 3 = .ok r ∧ 4 ≤ r + 3 ∧ r ≤ 4 + 3 :=
  lead_index_step_partial (by norm_num) (by omega) (by omega) (by omega) (by omega)

/-- C67 is false for a step at the last point: the last difference is not taken into account, and the result is at
the beginning of the data. -/
theorem lead_index_step_refuted : ¬ ∀ (n k w : Nat) (a b : ℝ), a ≠ b → 0 < k → k < n → 0 < w → w + 2 ≤ n →
    ∃ r, leadIndex (cleanStep n k a b) w = .ok r ∧ k ≤ r + w := by
  intro h
  obtain ⟨r, h1, h2⟩ := h 10 9 2 0 1 (by norm_num) (by omega) (by omega) (by omega) (by omega)
  obtain ⟨-, i, ⟨i1, i2, i3⟩, rfl⟩ := (lead_index_ok (cleanStep 10 9 0 1) 2).2 r h1
  have hj : ∀ j < 7, jump (cleanStep 10 9 0 1) 2 j = 0 := by
    intro j hj
    unfold jump
    rw [cleanStep_getD (by omega) _ _ (by omega), cleanStep_getD (by omega) _ _ (by omega), if_pos (by omega),
      if_pos (by omega)]
    simp
  simp only [cleanStep_length (show 9 ≤ 10 by omega)] at i1
  have hi0 : i = 0 := by
    by_contra hc
    have := i3 0 (by omega)
    rw [hj 0 (by omega), hj i (by omega)] at this
    exact lt_irrefl _ this
  subst hi0
  have : roundHalf 2 = 1 := rfl
  omega

/-! ## Moving average -/

theorem window_length {data : List ℝ} {width i : Nat} (hi : i < data.length) :
    (window data width i).length = min (i + 1) width := by
  unfold window
  simp only [List.length_drop, List.length_take]
  omega

theorem mean_bounds {l : List ℝ} (hl : l ≠ []) {lo hi : ℝ} (h : ∀ x ∈ l, lo ≤ x ∧ x ≤ hi) :
    lo ≤ l.sum / l.length ∧ l.sum / l.length ≤ hi := by
  have hpos : (0 : ℝ) < l.length := by exact_mod_cast List.length_pos_iff.mpr hl
  have h1 := List.card_nsmul_le_sum l lo fun x hx => (h x hx).1
  have h2 := List.sum_le_card_nsmul l hi fun x hx => (h x hx).2
  rw [nsmul_eq_mul] at h1 h2
  constructor
  · rw [le_div_iff₀ hpos]; linarith
  · rw [div_le_iff₀ hpos]; linarith

/-- C68 (partial): for a positive width, the function fails exactly if the width exceeds the number of points or there
is only one point; otherwise the result has the same length, each entry is the mean of its window, and lies between
all bounds of the window; constant data is reproduced.  Missing: one point, see `moving_average_refuted`. -/
theorem moving_average_partial (data : List ℝ) (width : Nat) (hw : 0 < width) :
    ((∃ out, movingAverage data width = .ok out) ↔ width ≤ data.length ∧ data.length ≠ 1) ∧
    ∀ out, movingAverage data width = .ok out → out.length = data.length ∧
      ∀ i < data.length, out.getD i 0 = (window data width i).sum / (window data width i).length ∧
        (∀ lo hi, (∀ x ∈ window data width i, lo ≤ x ∧ x ≤ hi) → lo ≤ out.getD i 0 ∧ out.getD i 0 ≤ hi) ∧
        ∀ c, (∀ x ∈ data, x = c) → out.getD i 0 = c := by
  unfold movingAverage
  constructor
  · constructor
    · rintro ⟨out, h⟩
      split at h
      · cases h
      · rename_i hc
        by_contra hn
        exact hc ⟨hw, by omega⟩
    · rintro ⟨h1, h2⟩
      rw [if_neg (by omega), if_neg (by omega)]
      exact ⟨_, rfl⟩
  · intro out h
    split at h
    · cases h
    · split at h
      · cases h
      · cases h
        refine ⟨by simp, fun i hi => ?_⟩
        have hget : ∀ f : Nat → ℝ, ((List.range data.length).map f).getD i 0 = f i := by
          intro f
          rw [List.getD_eq_getElem?_getD]
          simp [hi]
        rw [hget]
        have hlen := window_length (width := width) hi
        have hne : window data width i ≠ [] := by
          intro h0
          rw [h0] at hlen
          simp at hlen
          omega
        have hmean : (if i < width then windowMean data 0 (i + 1) (i + 1)
            else windowMean data (i - width + 1) (i + 1) width) =
            (window data width i).sum / (window data width i).length := by
          rw [hlen]
          unfold windowMean window
          split
          · rename_i h1
            have : i + 1 - width = 0 := by omega
            rw [this, Nat.min_eq_left (by omega)]
            ring
          · rename_i h1
            have : i + 1 - width = i - width + 1 := by omega
            rw [this, Nat.min_eq_right (by omega)]
            ring
        rw [hmean]
        refine ⟨rfl, fun lo hi' hb => mean_bounds hne hb, fun c hc => ?_⟩
        have hmem : ∀ x ∈ window data width i, c ≤ x ∧ x ≤ c := fun x hx => by
          have := hc x (List.mem_of_mem_take (List.mem_of_mem_drop hx))
          exact ⟨this.ge, this.le⟩
        have := mean_bounds hne hmem
        exact le_antisymm this.2 this.1

/-- Three points, width 2. -/
example : ∃ out, movingAverage [1, 2, 6] 2 = .ok out ∧ out.getD 2 0 = 4 := by
  obtain ⟨out, h⟩ := (moving_average_partial [1, 2, 6] 2 (by omega)).1.mpr ⟨by simp, by simp⟩
  refine ⟨out, h, ?_⟩
  rw [((moving_average_partial [1, 2, 6] 2 (by omega)).2 out h).2 2 (by simp) |>.1]
  norm_num [window]

/-- C68 is false: for one point the function fails although the width does not exceed the number of points. -/
theorem moving_average_refuted : ¬ ∀ (data : List ℝ) (width : Nat), 0 < width →
    ((∃ out, movingAverage data width = .ok out) ↔ width ≤ data.length) := by
  intro h
  have := (h [1] 1 (by omega)).mpr (by simp)
  exact ((moving_average_partial [1] 1 (by omega)).1.mp this).2 rfl

/-! ## The steepest point of a sensing dot -/

/-- C88: with the number of points of the data, the result is inside the scan; the function fails exactly for fewer
than 200 points. -/
theorem find_steepest_ok (data : List ℝ) (r : ℝ) (hr : 0 < r) :
    ((∃ v, findSteepest data r data.length = .ok v) ↔ 200 ≤ data.length) ∧
    ∀ v, findSteepest data r data.length = .ok v → -r < v ∧ v < r := by
  by_cases hn : 200 ≤ data.length
  · obtain ⟨d1, h1⟩ := (moving_average_partial data 200 (by omega)).1.mpr ⟨hn, by omega⟩
    have l1 := ((moving_average_partial data 200 (by omega)).2 d1 h1).1
    have h2 : nthDiff d1 30 = .ok ((List.range (d1.length - 30)).map
        fun i => d1.getD i 0 - d1.getD (i + 30) 0) := by
      unfold nthDiff; rw [if_neg (by omega)]
    set d2 := (List.range (d1.length - 30)).map fun i => d1.getD i 0 - d1.getD (i + 30) 0 with hd2
    have l2 : d2.length = data.length - 30 := by rw [hd2]; simp [l1]
    obtain ⟨d3, h3⟩ := (moving_average_partial d2 30 (by omega)).1.mpr ⟨by omega, by omega⟩
    have l3 := ((moving_average_partial d2 30 (by omega)).2 d3 h3).1
    have h4 : ∃ i, argmin d3 = some i := by
      cases h : argmin d3 with
      | some i => exact ⟨i, rfl⟩
      | none =>
        unfold argmin at h
        rw [argmax_none] at h
        have := congrArg List.length h
        simp [l3, l2] at this
        omega
    obtain ⟨i, h4⟩ := h4
    have hi : i < data.length - 30 := by
      have := (argmax_spec h4).1
      simp only [List.length_map] at this
      omega
    have hv : findSteepest data r data.length =
        .ok (((i + 15 : Nat) - (data.length : ℝ) / 2) * r / (data.length / 2)) := by
      unfold findSteepest
      rw [h1]; dsimp only
      rw [h2]; dsimp only
      rw [h3]; dsimp only
      rw [h4]
    refine ⟨⟨fun _ => hn, fun _ => ⟨_, hv⟩⟩, fun v hv' => ?_⟩
    rw [hv] at hv'
    cases hv'
    have hN : (0 : ℝ) < (data.length : ℝ) / 2 := by
      have : (200 : ℝ) ≤ data.length := by exact_mod_cast hn
      linarith
    have hlt : ((i + 15 : Nat) : ℝ) < data.length := by
      have : i + 15 < data.length := by omega
      exact_mod_cast this
    have hgt : (0 : ℝ) < ((i + 15 : Nat) : ℝ) := by
      have : 0 < i + 15 := by omega
      exact_mod_cast this
    constructor
    · rw [lt_div_iff₀ hN]
      nlinarith
    · rw [div_lt_iff₀ hN]
      nlinarith
  · have hf : ∀ v, findSteepest data r data.length ≠ .ok v := by
      intro v hv
      unfold findSteepest at hv
      split at hv
      · cases hv
      · rename_i d hd
        have := ((moving_average_partial data 200 (by omega)).1.mp ⟨_, hd⟩).1
        omega
    exact ⟨⟨fun ⟨v, hv⟩ => absurd hv (hf v), fun h => absurd h hn⟩, fun v hv => absurd hv (hf v)⟩

/-- Constant data with 300 points. -/
example : ∃ v, findSteepest (List.replicate 300 1) 5 300 = .ok v ∧ -5 < v ∧ v < 5 := by
  have h := find_steepest_ok (List.replicate 300 1) 5 (by norm_num)
  rw [List.length_replicate] at h
  obtain ⟨v, hv⟩ := h.1.mpr (by omega)
  exact ⟨v, hv, h.2 v hv⟩

/-! ## The data of the caller -/

/-- C89 is false: `find_lead_transition` changes the data of the caller. -/
theorem find_lead_data_refuted : ¬ ∀ (data : List ℝ) (n : Nat), (findLead data n).1 = data := by
  intro h
  have := congrArg (fun l => l.getD 0 0) (h [1, 2, 3] 1)
  have h2 := (subtractShifted_spec 1 [1, 2, 3] 1 (by simp)).2.1 0 (by omega)
  have h3 : (subtractShifted 1 1 [1, 2, 3]).getD 0 0 = 1 := this
  rw [h3] at h2
  norm_num at h2

/-- C89 (partial): the points at the end, from `n + 1` points before the end, are not changed; and the result is that of
`new_find_lead_transition_index`.  Missing: the other points, see `find_lead_data_refuted`. -/
theorem find_lead_data_partial (data : List ℝ) (n : Nat) (h : n + 2 ≤ data.length) :
    (∀ i, data.length - n - 1 ≤ i → (findLead data n).1.getD i 0 = data.getD i 0) ∧
    (findLead data n).2 = leadIndex data n := by
  refine ⟨fun i hi => ?_, ?_⟩
  · exact (subtractShifted_spec n data (data.length - n - 1) (by omega)).2.2 i hi
  · unfold findLead leadIndex
    rw [if_neg (by omega)]
    dsimp only
    rw [← List.map_take]

end Qtune.Signal
