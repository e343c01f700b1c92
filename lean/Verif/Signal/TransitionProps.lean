import Verif.Signal.TransitionSpec
import Verif.Signal.Props
import Mathlib.Analysis.SpecialFunctions.Trigonometric.DerivHyp

/-!
# The position of a transition
-/

namespace Qtune.Signal

theorem roundHalf_middle (w : Nat) : |(roundHalf w : ℝ) - w / 2| ≤ 1 / 2 := by
  have h : 2 * roundHalf w ≤ w + 1 ∧ w ≤ 2 * roundHalf w + 1 := by
    unfold roundHalf
    split
    · omega
    · split <;> omega
  have h1 : (2 * roundHalf w : ℝ) ≤ w + 1 := by exact_mod_cast h.1
  have h2 : (w : ℝ) ≤ 2 * roundHalf w + 1 := by exact_mod_cast h.2
  rw [abs_le]
  constructor <;> linarith

theorem jump_scan {f : ℝ → ℝ} {x₀ δ c : ℝ} {n w j : Nat} (hj : j + w < n) :
    jump (transitionScan f x₀ δ n c) w j =
      |f (x₀ + w * δ / 2 + j * δ - c + w * δ / 2) - f (x₀ + w * δ / 2 + j * δ - c - w * δ / 2)| := by
  have get : ∀ i, i < n → (transitionScan f x₀ δ n c).getD i 0 = f (x₀ + i * δ - c) := by
    intro i hi
    unfold transitionScan
    rw [List.getD_eq_getElem?_getD, List.getElem?_map, List.getElem?_range hi]
    rfl
  unfold jump
  rw [get j (by omega), get (j + w) hj, abs_sub_comm]
  congr 3
  · push_cast; ring
  · ring

/-- The transition is found up to one point: where it is, or at the end of the positions that the window can have if it is
not between them. -/
theorem transition_found {f : ℝ → ℝ} {x₀ δ c : ℝ} {n w : Nat} (hδ : 0 < δ) (hn : w + 2 ≤ n)
    (hf : Peaked f (w * δ / 2)) :
    ∃ r, leadIndex (transitionScan f x₀ δ n c) w = .ok r ∧ r < n ∧
      |x₀ + r * δ - nearest (x₀ + w * δ / 2) (x₀ + w * δ / 2 + (n - w - 2 : ℝ) * δ) c| ≤ δ := by
  have hlen : (transitionScan f x₀ δ n c).length = n := by simp [transitionScan]
  obtain ⟨h1, h2⟩ := lead_index_ok (transitionScan f x₀ δ n c) w
  obtain ⟨r, hr⟩ := h1.2 (by rw [hlen]; exact hn)
  obtain ⟨hrn, i, ⟨hi, hmax, -⟩, rfl⟩ := h2 r hr
  rw [hlen] at hrn hi hmax
  refine ⟨_, hr, hrn, ?_⟩
  obtain ⟨lo, hlo⟩ : ∃ lo, lo = x₀ + w * δ / 2 := ⟨_, rfl⟩
  have key : ∀ j < n - w - 1, |lo + i * δ - c| ≤ |lo + j * δ - c| := by
    intro j hj
    by_contra hlt
    have h3 := hf _ _ (not_le.1 hlt)
    have h4 := hmax j hj
    rw [jump_scan (by omega), jump_scan (by omega), ← hlo] at h4
    linarith
  rw [← hlo]
  have hi' : (i : ℝ) ≤ n - w - 2 := by
    have : i + w + 2 ≤ n := by omega
    have : ((i + w + 2 : Nat) : ℝ) ≤ n := by exact_mod_cast this
    push_cast at this
    linarith
  obtain ⟨hi_, hhi⟩ : ∃ x, x = lo + (n - w - 2 : ℝ) * δ := ⟨_, rfl⟩
  have hle : lo + i * δ ≤ hi_ := by rw [hhi]; nlinarith
  have hge : lo ≤ lo + i * δ := by have : (0 : ℝ) ≤ i * δ := by positivity
                                   linarith
  rw [← hhi]
  have hmid : |lo + i * δ - nearest lo hi_ c| ≤ δ / 2 := by
    unfold nearest
    rcases lt_or_ge (δ / 2) (lo + i * δ - c) with h | h
    · -- too far to the right: only the first position
      have h0 : i = 0 := by
        by_contra h0
        have := key (i - 1) (by omega)
        have hc : ((i - 1 : Nat) : ℝ) = i - 1 := by
          rw [Nat.cast_sub (by omega)]; simp
        rw [hc] at this
        have h5 : |lo + (i - 1 : ℝ) * δ - c| < |lo + i * δ - c| := by
          rw [abs_of_pos (by linarith : 0 < lo + i * δ - c), abs_lt]
          constructor <;> linarith
        linarith
      subst h0
      simp only [Nat.cast_zero, zero_mul, add_zero] at h hle ⊢
      rw [min_eq_right (by linarith), max_eq_left (by linarith)]
      simp
      linarith
    · rcases lt_or_ge (lo + i * δ - c) (-(δ / 2)) with h' | h'
      · have h0 : i + w + 2 = n := by
          by_contra h0
          have := key (i + 1) (by omega)
          push_cast at this
          have h5 : |lo + (i + 1 : ℝ) * δ - c| < |lo + i * δ - c| := by
            rw [abs_of_neg (by linarith : lo + i * δ - c < 0), abs_lt]
            constructor <;> linarith
          linarith
        have h6 : lo + i * δ = hi_ := by
          rw [hhi, ← h0]
          push_cast
          ring
        rw [min_eq_left (by linarith), max_eq_right (by linarith), h6]
        simp
        linarith
      · rw [abs_le]
        rcases le_total hi_ c with hc | hc
        · rw [min_eq_left hc, max_eq_right (by linarith)]
          constructor <;> linarith
        · rw [min_eq_right hc]
          rcases le_total lo c with hc' | hc'
          · rw [max_eq_right hc']
            constructor <;> linarith
          · rw [max_eq_left hc']
            constructor <;> linarith
  have hround := roundHalf_middle w
  have e : x₀ + ((i + roundHalf w : Nat) : ℝ) * δ - nearest lo hi_ c =
      (lo + i * δ - nearest lo hi_ c) + ((roundHalf w : ℝ) - w / 2) * δ := by
    rw [hlo]
    push_cast
    ring
  rw [e]
  refine (abs_add_le _ _).trans ?_
  rw [abs_mul, abs_of_pos hδ]
  nlinarith

/-- The hyperbolic tangent has such a transition, for every height and width (`transition_simulation`,
basic_dqd.py:148-160). -/
theorem tanh_peaked {a b h o : ℝ} (ha : a ≠ 0) (hb : 0 < b) (hh : 0 < h) : Peaked (fun t => o + a * Real.tanh (t / b)) h := by
  have key : ∀ t, o + a * Real.tanh ((t + h) / b) - (o + a * Real.tanh ((t - h) / b)) =
      a * (Real.sinh (2 * (h / b)) / (Real.cosh (t / b) ^ 2 + Real.sinh (h / b) ^ 2)) := by
    intro t
    have h1 : Real.tanh ((t + h) / b) - Real.tanh ((t - h) / b) =
        Real.sinh (2 * (h / b)) / (Real.cosh (t / b) ^ 2 + Real.sinh (h / b) ^ 2) := by
      rw [Real.tanh_eq_sinh_div_cosh, Real.tanh_eq_sinh_div_cosh,
        div_sub_div _ _ (Real.cosh_pos _).ne' (Real.cosh_pos _).ne']
      congr 1
      · rw [← Real.sinh_sub]
        congr 1
        ring
      · rw [add_div, sub_div, Real.cosh_add, Real.cosh_sub]
        have e1 := Real.cosh_sq (t / b)
        have e2 := Real.cosh_sq (h / b)
        have : (Real.cosh (t / b) * Real.cosh (h / b) + Real.sinh (t / b) * Real.sinh (h / b)) *
            (Real.cosh (t / b) * Real.cosh (h / b) - Real.sinh (t / b) * Real.sinh (h / b)) =
            Real.cosh (t / b) ^ 2 * Real.cosh (h / b) ^ 2 - Real.sinh (t / b) ^ 2 * Real.sinh (h / b) ^ 2 := by ring
        rw [this, e2]
        nlinarith
    rw [← h1]
    ring
  intro s t hst
  simp only
  rw [key, key, abs_mul, abs_mul]
  refine mul_lt_mul_of_pos_left ?_ (abs_pos.2 ha)
  have hs : 0 < Real.sinh (2 * (h / b)) := Real.sinh_pos_iff.2 (by positivity)
  have hcs : 0 < Real.cosh (s / b) ^ 2 + Real.sinh (h / b) ^ 2 := by have := Real.cosh_pos (s / b); positivity
  have hct : 0 < Real.cosh (t / b) ^ 2 + Real.sinh (h / b) ^ 2 := by have := Real.cosh_pos (t / b); positivity
  rw [abs_of_pos (by positivity), abs_of_pos (by positivity)]
  refine div_lt_div_of_pos_left hs hcs ?_
  have : Real.cosh (s / b) < Real.cosh (t / b) := by
    rw [Real.cosh_lt_cosh, abs_div, abs_div]
    exact div_lt_div_of_pos_right hst (abs_pos.2 hb.ne')
  have h0 := Real.cosh_pos (s / b)
  nlinarith

/-- A case that meets the hypotheses: a scan with 100 points from 0 to 99 over a step of the form of a hyperbolic tangent at
30.3, seen through a window of 8 points, gives a position at most one point away from the step. -/
example : ∃ r, leadIndex (transitionScan (fun t => 1 + 2 * Real.tanh (t / 3)) 0 1 100 30.3) 8 = .ok r ∧ r < 100 ∧
    |(r : ℝ) - 30.3| ≤ 1 := by
  obtain ⟨r, h1, h2, h3⟩ := transition_found (f := fun t => 1 + 2 * Real.tanh (t / 3)) (x₀ := 0) (δ := 1) (c := 30.3)
    (n := 100) (w := 8) one_pos (by norm_num) (tanh_peaked two_ne_zero three_pos (by norm_num))
  refine ⟨r, h1, h2, ?_⟩
  have : nearest (0 + ((8 : ℕ) : ℝ) * 1 / 2) (0 + ((8 : ℕ) : ℝ) * 1 / 2 + (((100 : ℕ) : ℝ) - ((8 : ℕ) : ℝ) - 2) * 1) 30.3 = 30.3 := by
    unfold nearest
    norm_num
  rw [this] at h3
  simpa using h3

end Qtune.Signal
