import Mathlib.Analysis.Calculus.LocalExtr.Rolle
import Mathlib.Analysis.SpecialFunctions.ExpDeriv
import Verif.Evaluator.FitExactProps

/-!
# Eight points of a transition determine its width (helper lemmas for C143)

Sums of exponentials with straight lines as coefficients have few zeros.
-/

namespace Qtune.Evaluator.Fit

/-- The sum of `(u + v x) exp (r x)` over the triples `(r, u, v)`. -/
noncomputable def expSum (l : List (ℝ × ℝ × ℝ)) (x : ℝ) : ℝ :=
  (l.map fun t => (t.2.1 + t.2.2 * x) * Real.exp (t.1 * x)).sum

/-- The derivative of one of the summands. -/
def expStep (t : ℝ × ℝ × ℝ) : ℝ × ℝ × ℝ := (t.1, t.2.2 + t.1 * t.2.1, t.1 * t.2.2)

theorem expSum_cons (t : ℝ × ℝ × ℝ) (l : List (ℝ × ℝ × ℝ)) (x : ℝ) :
    expSum (t :: l) x = (t.2.1 + t.2.2 * x) * Real.exp (t.1 * x) + expSum l x := by
  simp [expSum]

theorem expSum_deriv (l : List (ℝ × ℝ × ℝ)) (x : ℝ) : HasDerivAt (expSum l) (expSum (l.map expStep) x) x := by
  induction l with
  | nil => exact hasDerivAt_const x (0 : ℝ)
  | cons t l ih =>
    rw [List.map_cons, expSum_cons]
    have h1 : HasDerivAt (fun x => t.2.1 + t.2.2 * x) t.2.2 x := by
      simpa using ((hasDerivAt_id x).const_mul t.2.2).const_add t.2.1
    have h2 : HasDerivAt (fun x => Real.exp (t.1 * x)) (Real.exp (t.1 * x) * t.1) x := by
      simpa using ((hasDerivAt_id x).const_mul t.1).exp
    have h3 := (h1.mul h2).add ih
    have e : expSum (t :: l) = (fun x => t.2.1 + t.2.2 * x) * (fun x => Real.exp (t.1 * x)) + expSum l := by
      funext y; simp [expSum_cons]
    rw [e]
    refine h3.congr_deriv ?_
    simp only [expStep]
    ring

/-- Between the zeros of a function there are zeros of its derivative. -/
theorem rolle_list {f f' : ℝ → ℝ} (hf : ∀ x, HasDerivAt f (f' x) x) : ∀ (t : List ℝ) (a : ℝ), (a :: t).Pairwise (· < ·) →
    (∀ x ∈ a :: t, f x = 0) → ∃ s : List ℝ, s.length = t.length ∧ s.Pairwise (· < ·) ∧ (∀ x ∈ s, f' x = 0) ∧ ∀ x ∈ s, a < x := by
  intro t
  induction t with
  | nil => intro a _ _; exact ⟨[], rfl, List.Pairwise.nil, by simp, by simp⟩
  | cons b t ih =>
    intro a h1 h2
    obtain ⟨h3, h4⟩ := List.pairwise_cons.1 h1
    obtain ⟨s, s1, s2, s3, s4⟩ := ih b h4 (fun x hx => h2 x (List.mem_cons_of_mem _ hx))
    have hab : a < b := h3 b (by simp)
    obtain ⟨c, hc, hc0⟩ := exists_hasDerivAt_eq_zero hab (fun x _ => (hf x).continuousAt.continuousWithinAt)
      (by rw [h2 a (by simp), h2 b (by simp)]) (fun x _ => hf x)
    refine ⟨c :: s, by simp [s1], List.pairwise_cons.2 ⟨fun x hx => hc.2.trans (s4 x hx), s2⟩, ?_, ?_⟩
    · rintro x hx
      rcases List.mem_cons.1 hx with rfl | hx
      · exact hc0
      · exact s3 x hx
    · rintro x hx
      rcases List.mem_cons.1 hx with rfl | hx
      · exact hc.1
      · exact hab.trans (s4 x hx)

/-- A sum of `k` exponentials with different rates and straight lines as coefficients that has `2 k` zeros has no coefficients. -/
theorem expSum_zero : ∀ (k : Nat) (l : List (ℝ × ℝ × ℝ)), l.length = k → (l.map Prod.fst).Nodup → ∀ s : List ℝ,
    s.Pairwise (· < ·) → 2 * k ≤ s.length → (∀ x ∈ s, expSum l x = 0) → ∀ t ∈ l, t.2.1 = 0 ∧ t.2.2 = 0 := by
  intro k
  induction k with
  | zero => intro l hl; rw [List.length_eq_zero_iff.1 hl]; simp
  | succ k ih =>
    intro l hl hnd s hs hlen hz
    match l, hl with
    | t :: l, hl =>
      have hl' : l.length = k := by simpa using hl
      rw [List.map_cons, List.nodup_cons] at hnd
      -- divide by the first exponential
      let shift : ℝ × ℝ × ℝ → ℝ × ℝ × ℝ := fun u => (u.1 - t.1, u.2.1, u.2.2)
      have hshift : ∀ (m : List (ℝ × ℝ × ℝ)) x, expSum (m.map shift) x = expSum m x * Real.exp (-(t.1 * x)) := by
        intro m x
        induction m with
        | nil => simp [expSum]
        | cons u m ihm =>
          rw [List.map_cons, expSum_cons, ihm, expSum_cons]
          have : Real.exp ((u.1 - t.1) * x) = Real.exp (u.1 * x) * Real.exp (-(t.1 * x)) := by rw [← Real.exp_add]; ring_nf
          simp only [shift, this]
          ring
      have hz1 : ∀ x ∈ s, expSum (shift t :: l.map shift) x = 0 := by
        intro x hx
        have := hshift (t :: l) x
        rw [List.map_cons] at this
        rw [this, hz x hx, zero_mul]
      match s, hs, hlen, hz, hz1 with
      | a :: s, hs, hlen, hz, hz1 =>
        obtain ⟨s1, l1, p1, z1, -⟩ := rolle_list (expSum_deriv _) s a hs hz1
        match s1, l1, p1, z1 with
        | [], l1, _, _ => simp at l1 hlen; omega
        | b :: s1, l1, p1, z1 =>
          obtain ⟨s2, l2, p2, z2, -⟩ := rolle_list (expSum_deriv _) s1 b p1 z1
          have hstep : ∀ t' ∈ l, t'.2.1 = 0 ∧ t'.2.2 = 0 := by
            have := ih (((l.map shift).map expStep).map expStep) (by simp [hl']) (by
              have e : (((l.map shift).map expStep).map expStep).map Prod.fst = (l.map Prod.fst).map (· - t.1) := by
                simp [List.map_map, Function.comp_def, shift, expStep]
              rw [e]
              exact hnd.2.map (sub_left_injective)) s2 p2 (by simp at l1 hlen; omega) (by
              intro x hx
              have := z2 x hx
              simpa [expSum_cons, shift, expStep] using this)
            intro t' ht'
            have hne : t'.1 - t.1 ≠ 0 := by
              intro h0
              exact hnd.1 (List.mem_map.2 ⟨t', ht', by linarith⟩)
            obtain ⟨q1, q2⟩ := this (expStep (expStep (shift t'))) (List.mem_map_of_mem (List.mem_map_of_mem (List.mem_map_of_mem ht')))
            simp only [expStep, shift] at q1 q2
            have v0 : t'.2.2 = 0 := by
              rcases mul_eq_zero.1 q2 with h | h
              · exact absurd h hne
              · rcases mul_eq_zero.1 h with h | h
                · exact absurd h hne
                · exact h
            rw [v0] at q1
            refine ⟨?_, v0⟩
            have : (t'.1 - t.1) * (t'.1 - t.1) * t'.2.1 = 0 := by linarith
            rcases mul_eq_zero.1 this with h | h
            · exact absurd h (mul_ne_zero hne hne)
            · exact h
          have hrest : ∀ m : List (ℝ × ℝ × ℝ), (∀ t' ∈ m, t'.2.1 = 0 ∧ t'.2.2 = 0) → ∀ x, expSum m x = 0 := by
            intro m
            induction m with
            | nil => intro _ x; simp [expSum]
            | cons u m ihm =>
              intro h x
              rw [expSum_cons, ihm (fun t' ht' => h t' (List.mem_cons_of_mem _ ht')), (h u (by simp)).1, (h u (by simp)).2]
              simp
          match s, hs, hlen, hz with
          | [], _, hlen, _ => simp at hlen; omega
          | a' :: s, hs, hlen, hz =>
            have ha := hz a (by simp)
            have ha' := hz a' (by simp)
            rw [expSum_cons, hrest l hstep, add_zero] at ha ha'
            have e1 := (mul_eq_zero.1 ha).resolve_right (Real.exp_pos _).ne'
            have e2 := (mul_eq_zero.1 ha').resolve_right (Real.exp_pos _).ne'
            have hlt : a < a' := (List.pairwise_cons.1 hs).1 a' (by simp)
            have v0 : t.2.2 = 0 := by
              have : t.2.2 * (a' - a) = 0 := by linarith
              exact (mul_eq_zero.1 this).resolve_right (by linarith [sub_pos.2 hlt] |> fun (h : a' - a ≠ 0) => h)
            intro t' ht'
            rcases List.mem_cons.1 ht' with rfl | h
            · exact ⟨by rw [v0] at e1; linarith, v0⟩
            · exact hstep t' h

theorem tanh_exp (z : ℝ) : Real.tanh z = 1 - 2 / (1 + Real.exp (2 * z)) := by
  rw [Real.tanh_eq_sinh_div_cosh, Real.sinh_eq, Real.cosh_eq]
  have h1 : Real.exp (2 * z) = Real.exp z * Real.exp z := by rw [← Real.exp_add]; ring_nf
  have h2 : Real.exp (-z) = (Real.exp z)⁻¹ := Real.exp_neg z
  have h3 := Real.exp_pos z
  rw [h1, h2]
  field_simp
  ring

/-- The combination of two steps on a straight line, with different widths, has fewer than eight zeros. -/
theorem two_steps {A B c d a b p q : ℝ} (ha : a ≠ 0) (hb : b ≠ 0) (hab : a ≠ b) (hab' : a ≠ -b) {s : List ℝ}
    (hs : s.Pairwise (· < ·)) (hlen : 8 ≤ s.length)
    (hz : ∀ x ∈ s, A + B * x + c * Real.tanh (a * (x - p)) + d * Real.tanh (b * (x - q)) = 0) : c = 0 := by
  have key := expSum_zero 4 [(0, A + c + d - 2 * c - 2 * d, B), (2 * a, Real.exp (-(2 * a * p)) * (A + c + d - 2 * d),
      Real.exp (-(2 * a * p)) * B), (2 * b, Real.exp (-(2 * b * q)) * (A + c + d - 2 * c), Real.exp (-(2 * b * q)) * B),
      (2 * a + 2 * b, Real.exp (-(2 * a * p)) * Real.exp (-(2 * b * q)) * (A + c + d),
        Real.exp (-(2 * a * p)) * Real.exp (-(2 * b * q)) * B)] rfl (by
      simp only [List.map_cons, List.map_nil, List.nodup_cons, List.mem_cons, List.not_mem_nil, or_false, not_or, not_false_eq_true,
        List.nodup_nil, and_true]
      refine ⟨⟨?_, ?_, ?_⟩, ⟨?_, ?_⟩, ?_⟩
      · intro h; exact ha (by linarith)
      · intro h; exact hb (by linarith)
      · intro h; exact hab' (by linarith)
      · intro h; exact hab (by linarith)
      · intro h; exact hb (by linarith)
      · intro h; exact ha (by linarith)) s hs (by omega) (by
      intro x hx
      have h := hz x hx
      have e1 : Real.exp (2 * (a * (x - p))) = Real.exp (-(2 * a * p)) * Real.exp (2 * a * x) := by
        rw [← Real.exp_add]; ring_nf
      have e2 : Real.exp (2 * (b * (x - q))) = Real.exp (-(2 * b * q)) * Real.exp (2 * b * x) := by
        rw [← Real.exp_add]; ring_nf
      have e3 : Real.exp ((2 * a + 2 * b) * x) = Real.exp (2 * a * x) * Real.exp (2 * b * x) := by
        rw [← Real.exp_add]; ring_nf
      rw [tanh_exp, tanh_exp, e1, e2] at h
      simp only [expSum, List.map_cons, List.map_nil, List.sum_cons, List.sum_nil, e3, zero_mul, Real.exp_zero]
      have k1 := Real.exp_pos (-(2 * a * p))
      have k2 := Real.exp_pos (-(2 * b * q))
      have x1 := Real.exp_pos (2 * a * x)
      have x2 := Real.exp_pos (2 * b * x)
      set k := Real.exp (-(2 * a * p))
      set k' := Real.exp (-(2 * b * q))
      set E := Real.exp (2 * a * x)
      set E' := Real.exp (2 * b * x)
      have n1 : 1 + k * E ≠ 0 := by positivity
      have n2 : 1 + k' * E' ≠ 0 := by positivity
      field_simp at h
      linarith)
  have h1 := (key (0, A + c + d - 2 * c - 2 * d, B) (by simp)).1
  have h2 := (key (2 * a, Real.exp (-(2 * a * p)) * (A + c + d - 2 * d), Real.exp (-(2 * a * p)) * B) (by simp)).1
  dsimp only at h1 h2
  have h2' := (mul_eq_zero.1 h2).resolve_left (Real.exp_pos _).ne'
  linarith

/-- Two steps with the same width are the same step. -/
theorem same_steps {A B c d a p q : ℝ} (ha : a ≠ 0) (hc : c ≠ 0) {s : List ℝ}
    (hs : s.Pairwise (· < ·)) (hlen : 6 ≤ s.length)
    (hz : ∀ x ∈ s, A + B * x + c * Real.tanh (a * (x - p)) + d * Real.tanh (a * (x - q)) = 0) :
    A = 0 ∧ B = 0 ∧ d = -c ∧ p = q := by
  have key := expSum_zero 3 [(0, A + c + d - 2 * c - 2 * d, B), (2 * a, Real.exp (-(2 * a * p)) * (A + c + d - 2 * d) +
      Real.exp (-(2 * a * q)) * (A + c + d - 2 * c), Real.exp (-(2 * a * p)) * B + Real.exp (-(2 * a * q)) * B),
      (4 * a, Real.exp (-(2 * a * p)) * Real.exp (-(2 * a * q)) * (A + c + d),
        Real.exp (-(2 * a * p)) * Real.exp (-(2 * a * q)) * B)] rfl (by
      simp only [List.map_cons, List.map_nil, List.nodup_cons, List.mem_cons, List.not_mem_nil, or_false, not_or, not_false_eq_true,
        List.nodup_nil, and_true]
      refine ⟨⟨?_, ?_⟩, ?_⟩
      · intro h; exact ha (by linarith)
      · intro h; exact ha (by linarith)
      · intro h; exact ha (by linarith)) s hs (by omega) (by
      intro x hx
      have h := hz x hx
      have e1 : Real.exp (2 * (a * (x - p))) = Real.exp (-(2 * a * p)) * Real.exp (2 * a * x) := by
        rw [← Real.exp_add]; ring_nf
      have e2 : Real.exp (2 * (a * (x - q))) = Real.exp (-(2 * a * q)) * Real.exp (2 * a * x) := by
        rw [← Real.exp_add]; ring_nf
      have e3 : Real.exp (4 * a * x) = Real.exp (2 * a * x) * Real.exp (2 * a * x) := by
        rw [← Real.exp_add]; ring_nf
      rw [tanh_exp, tanh_exp, e1, e2] at h
      simp only [expSum, List.map_cons, List.map_nil, List.sum_cons, List.sum_nil, e3, zero_mul, Real.exp_zero]
      have k1 := Real.exp_pos (-(2 * a * p))
      have k2 := Real.exp_pos (-(2 * a * q))
      have x1 := Real.exp_pos (2 * a * x)
      set k := Real.exp (-(2 * a * p))
      set k' := Real.exp (-(2 * a * q))
      set E := Real.exp (2 * a * x)
      have n1 : 1 + k * E ≠ 0 := by positivity
      have n2 : 1 + k' * E ≠ 0 := by positivity
      field_simp at h
      linarith)
  have h1 := key (0, A + c + d - 2 * c - 2 * d, B) (by simp)
  have h2 := (key (2 * a, Real.exp (-(2 * a * p)) * (A + c + d - 2 * d) +
      Real.exp (-(2 * a * q)) * (A + c + d - 2 * c), Real.exp (-(2 * a * p)) * B + Real.exp (-(2 * a * q)) * B) (by simp)).1
  have h3 := (key (4 * a, Real.exp (-(2 * a * p)) * Real.exp (-(2 * a * q)) * (A + c + d),
        Real.exp (-(2 * a * p)) * Real.exp (-(2 * a * q)) * B) (by simp)).1
  dsimp only at h1 h2 h3
  have h3' := (mul_eq_zero.1 h3).resolve_left (mul_ne_zero (Real.exp_pos _).ne' (Real.exp_pos _).ne')
  obtain ⟨h1, hB⟩ := h1
  have hd : d = -c := by linarith
  have hA : A = 0 := by linarith
  subst hd hA
  refine ⟨rfl, hB, rfl, ?_⟩
  have h4 : (2 * c) * (Real.exp (-(2 * a * p)) - Real.exp (-(2 * a * q))) = 0 := by linarith
  have h5 := (mul_eq_zero.1 h4).resolve_left (by simpa using hc)
  have h6 := Real.exp_injective (sub_eq_zero.1 h5)
  have h7 : (2 * a) * (p - q) = 0 := by linarith
  have h8 := (mul_eq_zero.1 h7).resolve_left (by simpa using ha)
  linarith

/-- A transition is determined by eight of its points, up to the common sign of its width and its height. -/
theorem transition_determined {offset slope height position width offset' slope' height' position' width' : ℝ} (hh : height ≠ 0)
    (hw : width ≠ 0) {s : List ℝ} (hs : s.Pairwise (· < ·)) (hlen : 8 ≤ s.length)
    (h : ∀ x ∈ s, transition offset' slope' height' position' width' x = transition offset slope height position width x) :
    slope' = slope ∧ position' = position ∧ ((width' = width ∧ height' = height ∧ offset' = offset) ∨
      (width' = -width ∧ height' = -height ∧ offset' = offset + height)) := by
  have hw1 : width⁻¹ ≠ 0 := inv_ne_zero hw
  have hc : height / 2 ≠ 0 := by simpa using hh
  have hw' : width' ≠ 0 := by
    rintro rfl
    refine hc (two_steps (A := offset + height / 2 - offset' - height' / 2) (B := slope - slope') (c := height / 2) (d := 0) (p := position) (q := 0)
      (b := 3 * width⁻¹) hw1 (by simpa using hw) (by intro h; apply hw1; linarith) (by intro h; apply hw1; linarith) hs hlen ?_)
    intro x hx
    have := h x hx
    simp only [transition, div_zero, Real.tanh_zero, div_eq_mul_inv (x - position)] at this
    rw [mul_comm (width⁻¹)]
    linarith
  have hw1' : width'⁻¹ ≠ 0 := inv_ne_zero hw'
  by_cases h1 : width⁻¹ = width'⁻¹
  · obtain rfl : width = width' := inv_injective h1
    obtain ⟨a1, a2, a3, a4⟩ := same_steps (A := offset + height / 2 - offset' - height' / 2) (B := slope - slope') (c := height / 2)
      (d := -(height' / 2)) (p := position) (q := position') hw1 hc hs (by omega) (by
        intro x hx
        have := h x hx
        simp only [transition, div_eq_mul_inv (x - _)] at this
        rw [mul_comm (width⁻¹), mul_comm (width⁻¹)]
        linarith)
    exact ⟨by linarith, a4.symm, Or.inl ⟨rfl, by linarith, by linarith⟩⟩
  · by_cases h2 : width⁻¹ = -width'⁻¹
    · obtain rfl : width' = -width := by
        rw [← inv_neg] at h2
        have := inv_injective h2
        linarith
      obtain ⟨a1, a2, a3, a4⟩ := same_steps (A := offset + height / 2 - offset' - height' / 2) (B := slope - slope') (c := height / 2)
        (d := height' / 2) (p := position) (q := position') hw1 hc hs (by omega) (by
          intro x hx
          have := h x hx
          simp only [transition, div_eq_mul_inv (x - _), inv_neg, mul_neg, Real.tanh_neg] at this
          rw [mul_comm (width⁻¹), mul_comm (width⁻¹)]
          linarith)
      exact ⟨by linarith, a4.symm, Or.inr ⟨rfl, by linarith, by linarith⟩⟩
    · exact absurd (two_steps (A := offset + height / 2 - offset' - height' / 2) (B := slope - slope') (c := height / 2)
        (d := -(height' / 2)) (p := position) (q := position') hw1 hw1' h1 h2 hs hlen (by
          intro x hx
          have := h x hx
          simp only [transition, div_eq_mul_inv (x - _)] at this
          rw [mul_comm (width⁻¹), mul_comm (width'⁻¹)]
          linarith)) hc

end Qtune.Evaluator.Fit
