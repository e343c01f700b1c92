import Verif.Gradient.UtilLemmas

/-! # Finite differences: properties C38, C39 -/

namespace Qtune.Gradient

/-- `f` is affine with gradient `g`. -/
def IsAffine {n : Nat} (f : Vec n → ℝ) (g : Vec n) : Prop :=
  ∃ b, ∀ x, f x = b + ∑ i, g i * x i

theorem IsAffine.sub {n : Nat} {f : Vec n → ℝ} {g : Vec n} (h : IsAffine f g) (x y : Vec n) :
    f x - f y = ∑ i, g i * (x - y) i := by
  obtain ⟨b, hb⟩ := h
  rw [hb, hb]
  simp only [Pi.sub_apply, mul_sub, Finset.sum_sub_distrib]
  ring

/-! ## C38 -/

/-- **C38, `n+1` points.** -/
theorem gradient_exact_base {n : Nat} (p : Fin (n + 1) → Vec n) (variances : Fin (n + 1) → ℝ)
    (f : Vec n → ℝ) (g : Vec n) (hf : IsAffine f g)
    (hind : LinearIndependent ℝ fun k : Fin n => p k.succ - p 0) :
    ∃ C, calculateGradient (List.ofFn p) (List.ofFn fun k => f (p k)) (List.ofFn variances) =
      .ok (g, C) := by
  unfold calculateGradient
  rw [if_neg (by simp), if_neg (by simp [List.ofFn_succ]), if_pos (by simp),
    baseDiffs_ofFn, baseDiffs_ofFn, baseSums_ofFn]
  exact fromDiffs_exact _ g _ _ hind (fun k => hf.sub _ _)

/-- **C38, `2n` points.** Points number `2k` and `2k+1` form a pair. -/
theorem gradient_exact_pairs {n : Nat} (hn : n ≠ 0) (p : Fin (2 * n) → Vec n)
    (variances : Fin (2 * n) → ℝ) (f : Vec n → ℝ) (g : Vec n) (hf : IsAffine f g)
    (hind : LinearIndependent ℝ fun k : Fin n => p (sndOf k) - p (fstOf k)) :
    ∃ C, calculateGradient (List.ofFn p) (List.ofFn fun k => f (p k)) (List.ofFn variances) =
      .ok (g, C) := by
  by_cases h1 : n = 1
  · subst h1
    refine gradient_exact_base (n := 1) p variances f g hf ?_
    convert hind using 2 with k
    fin_cases k
    rfl
  · unfold calculateGradient
    rw [if_neg (by simp), if_neg (by simp [List.ofFn_eq_nil_iff, hn]),
      if_neg (by simp; omega), if_pos (by simp), pairDiffs_ofFn, pairDiffs_ofFn, pairSums_ofFn]
    exact fromDiffs_exact _ g _ _ hind (fun k => hf.sub _ _)

/-- **C38, dependent differences, `n+1` points.** -/
theorem gradient_dependent_base {n : Nat} (p : Fin (n + 1) → Vec n) (values : Fin (n + 1) → ℝ)
    (variances : List ℝ) (hdep : ¬ LinearIndependent ℝ fun k : Fin n => p k.succ - p 0) :
    calculateGradient (List.ofFn p) (List.ofFn values) variances = .error .evaluationError := by
  unfold calculateGradient
  rw [if_neg (by simp), if_neg (by simp [List.ofFn_succ]), if_pos (by simp), baseDiffs_ofFn]
  exact fromDiffs_singular _ _ _ hdep

/-- **C38, dependent differences, `2n` points.** -/
theorem gradient_dependent_pairs {n : Nat} (p : Fin (2 * n) → Vec n)
    (values : Fin (2 * n) → ℝ) (variances : List ℝ)
    (hdep : ¬ LinearIndependent ℝ fun k : Fin n => p (sndOf k) - p (fstOf k)) :
    calculateGradient (List.ofFn p) (List.ofFn values) variances = .error .evaluationError := by
  have hn : n ≠ 0 := by
    rintro rfl
    exact hdep (linearIndependent_empty_type)
  by_cases h1 : n = 1
  · subst h1
    refine gradient_dependent_base (n := 1) p values variances (fun h => hdep ?_)
    convert h using 2 with k
    fin_cases k
    rfl
  · unfold calculateGradient
    rw [if_neg (by simp), if_neg (by simp [List.ofFn_eq_nil_iff, hn]),
      if_neg (by simp; omega), if_pos (by simp), pairDiffs_ofFn]
    exact fromDiffs_singular _ _ _ hdep

/-- **C38, wrong number of points.** -/
theorem gradient_wrong_number {n : Nat} (positions : List (Vec n)) (values variances : List ℝ)
    (hlen : values.length = positions.length) (h0 : positions.length ≠ 0)
    (h1 : positions.length ≠ n + 1) (h2 : positions.length ≠ 2 * n) :
    calculateGradient positions values variances =
      .error (.runtimeError "Invalid number of points") := by
  unfold calculateGradient
  rw [if_neg (by simpa using hlen), if_neg (by rintro rfl; exact h0 rfl),
    if_neg (by rw [hlen]; exact h1), if_neg (by rw [hlen]; exact h2)]

/-- Three points in the plane that are not on a line. -/
example : LinearIndependent ℝ fun k : Fin 2 =>
    (![![1, 1], ![3, 1], ![2, 5]] : Fin 3 → Vec 2) k.succ - (![![1, 1], ![3, 1], ![2, 5]] : Fin 3 → Vec 2) 0 := by
  rw [← det_ne_zero_iff]
  simp [Matrix.det_fin_two]
  norm_num

/-! ## C39 -/

/-- Linear propagation of independent errors: if the result depends linearly on the measured
values, `sens k` being the result for the value 1 in measurement `k` and 0 in all others,
then errors with the given variances lead to this covariance. -/
def propagated {m n : Nat} (sens : Fin m → Vec n) (variances : Fin m → ℝ) :
    Matrix (Fin n) (Fin n) ℝ :=
  fun i j => ∑ k, variances k * sens k i * sens k j

/-- `sens` are the gradients that `calculate_gradient_non_orthogonal` gives for the values
"1 in measurement `k`, 0 in all others". -/
def IsSensitivity {m n : Nat} (p : Fin m → Vec n) (sens : Fin m → Vec n) : Prop :=
  ∀ k, ∃ C, calculateGradient (List.ofFn p) (List.ofFn (Pi.single k (1 : ℝ) : Fin m → ℝ))
    (List.ofFn fun _ : Fin m => (0 : ℝ)) = .ok (sens k, C)

theorem fromDiffs_ok {n : Nat} {d : Fin n → Vec n} {dv s : List ℝ} {g : Vec n}
    {C : Matrix (Fin n) (Fin n) ℝ} (h : fromDiffs (List.ofFn d) dv s = .ok (g, C)) :
    (Matrix.of fun i k => d k i).det ≠ 0 ∧
    g = Matrix.vecMul (vector n dv) (Matrix.of fun i k => d k i)⁻¹ ∧
    C = (Matrix.of fun i k => d k i)⁻¹.transpose * Matrix.diagonal (vector n s) *
      (Matrix.of fun i k => d k i)⁻¹ := by
  unfold fromDiffs at h
  rw [columns_ofFn] at h
  by_cases hd : (Matrix.of fun i k => d k i).det = 0
  · simp [hd] at h
  · simp only [hd, if_false, Except.ok.injEq, Prod.mk.injEq] at h
    exact ⟨hd, h.1.symm, h.2.symm⟩

theorem sandwich_apply {n : Nat} (W : Matrix (Fin n) (Fin n) ℝ) (s : Fin n → ℝ) (i j : Fin n) :
    (W.transpose * Matrix.diagonal s * W) i j = ∑ l, s l * W l i * W l j := by
  rw [Matrix.mul_apply]
  refine Finset.sum_congr rfl fun l _ => ?_
  rw [Matrix.mul_diagonal, Matrix.transpose_apply]
  ring

theorem sum_pairs {n : Nat} (F : Fin (2 * n) → ℝ) :
    ∑ k, F k = ∑ l : Fin n, (F (sndOf l) + F (fstOf l)) := by
  let e : Fin n × Fin 2 ≃ Fin (2 * n) :=
    (finProdFinEquiv (m := n) (n := 2)).trans (finCongr (Nat.mul_comm n 2))
  rw [← e.sum_comp F, Fintype.sum_prod_type]
  refine Finset.sum_congr rfl fun l _ => ?_
  rw [Fin.sum_univ_two, add_comm]
  congr 2 <;> (apply Fin.ext; simp [e, finProdFinEquiv, sndOf, fstOf]; try omega)

/-- **C39 for `2n` points.** -/
theorem covariance_propagated_pairs {n : Nat} (hn : 2 ≤ n) (p : Fin (2 * n) → Vec n)
    (values variances : Fin (2 * n) → ℝ) (g : Vec n) (C : Matrix (Fin n) (Fin n) ℝ)
    (h : calculateGradient (List.ofFn p) (List.ofFn values) (List.ofFn variances) = .ok (g, C)) :
    ∃ sens, IsSensitivity p sens ∧ C = propagated sens variances := by
  have hcalc : ∀ v s : Fin (2 * n) → ℝ,
      calculateGradient (List.ofFn p) (List.ofFn v) (List.ofFn s) =
      fromDiffs (List.ofFn fun k : Fin n => p (sndOf k) - p (fstOf k))
        (List.ofFn fun k : Fin n => v (sndOf k) - v (fstOf k))
        (List.ofFn fun k : Fin n => s (sndOf k) + s (fstOf k)) := by
    intro v s
    unfold calculateGradient
    rw [if_neg (by simp), if_neg (by simp [List.ofFn_eq_nil_iff]; omega),
      if_neg (by simp; omega), if_pos (by simp), pairDiffs_ofFn, pairDiffs_ofFn, pairSums_ofFn]
  rw [hcalc] at h
  obtain ⟨hdet, _, hC⟩ := fromDiffs_ok h
  set W := (Matrix.of fun i k => (p (sndOf k) - p (fstOf k)) i)⁻¹ with hW
  refine ⟨fun k => Matrix.vecMul (fun l : Fin n =>
      (Pi.single k (1 : ℝ) : Fin (2 * n) → ℝ) (sndOf l) -
      (Pi.single k (1 : ℝ) : Fin (2 * n) → ℝ) (fstOf l)) W, ?_, ?_⟩
  · intro k
    rw [hcalc]
    unfold fromDiffs
    rw [columns_ofFn, vector_ofFn]
    simp only [hdet, if_false]
    exact ⟨_, rfl⟩
  · have hne : ∀ l l' : Fin n, sndOf l ≠ fstOf l' := by
      intro l l' h
      have := congrArg Fin.val h
      simp [sndOf, fstOf] at this
      omega
    have hinj1 : ∀ l l' : Fin n, sndOf l = sndOf l' ↔ l = l' := by
      intro l l'
      simp [sndOf, Fin.ext_iff]
    have hinj2 : ∀ l l' : Fin n, fstOf l = fstOf l' ↔ l = l' := by
      intro l l'
      simp [fstOf, Fin.ext_iff]
    have hs : ∀ (l i : Fin n), Matrix.vecMul (fun l' : Fin n =>
        (Pi.single (sndOf l) (1 : ℝ) : Fin (2 * n) → ℝ) (sndOf l') -
        (Pi.single (sndOf l) (1 : ℝ) : Fin (2 * n) → ℝ) (fstOf l')) W i = W l i := by
      intro l i
      simp [Matrix.vecMul, dotProduct, Pi.single_apply, hinj1, (hne _ _).symm]
    have hf : ∀ (l i : Fin n), Matrix.vecMul (fun l' : Fin n =>
        (Pi.single (fstOf l) (1 : ℝ) : Fin (2 * n) → ℝ) (sndOf l') -
        (Pi.single (fstOf l) (1 : ℝ) : Fin (2 * n) → ℝ) (fstOf l')) W i = - W l i := by
      intro l i
      simp [Matrix.vecMul, dotProduct, Pi.single_apply, hinj2, hne]
    rw [hC]
    ext i j
    rw [sandwich_apply, propagated, sum_pairs, vector_ofFn]
    refine Finset.sum_congr rfl fun l _ => ?_
    rw [hs, hs, hf, hf]
    ring

/-- What the code computes for `n+1` points: it ignores that all differences contain the value at
the base point. -/
theorem covariance_base {n : Nat} (p : Fin (n + 1) → Vec n)
    (values variances : Fin (n + 1) → ℝ) (g : Vec n) (C : Matrix (Fin n) (Fin n) ℝ)
    (h : calculateGradient (List.ofFn p) (List.ofFn values) (List.ofFn variances) = .ok (g, C)) :
    ∃ sens, IsSensitivity p sens ∧
      (∀ i, sens 0 i = - ∑ l : Fin n, sens l.succ i) ∧
      ∀ i j, C i j = propagated sens variances i j
        - variances 0 * (sens 0 i * sens 0 j - ∑ l : Fin n, sens l.succ i * sens l.succ j) := by
  have hcalc : ∀ v s : Fin (n + 1) → ℝ,
      calculateGradient (List.ofFn p) (List.ofFn v) (List.ofFn s) =
      fromDiffs (List.ofFn fun k : Fin n => p k.succ - p 0)
        (List.ofFn fun k : Fin n => v k.succ - v 0)
        (List.ofFn fun k : Fin n => s k.succ + s 0) := by
    intro v s
    unfold calculateGradient
    rw [if_neg (by simp), if_neg (by simp [List.ofFn_succ]), if_pos (by simp), baseDiffs_ofFn,
      baseDiffs_ofFn, baseSums_ofFn]
  rw [hcalc] at h
  obtain ⟨hdet, _, hC⟩ := fromDiffs_ok h
  set W := (Matrix.of fun i k => (p (Fin.succ k) - p 0 : Vec n) i)⁻¹ with hW
  let sens : Fin (n + 1) → Vec n := fun k => Matrix.vecMul (fun l : Fin n =>
      (Pi.single k (1 : ℝ) : Fin (n + 1) → ℝ) l.succ - (Pi.single k (1 : ℝ) : Fin (n + 1) → ℝ) 0) W
  have hs : ∀ (l i : Fin n), sens l.succ i = W l i := by
    intro l i
    simp [sens, Matrix.vecMul, dotProduct, Pi.single_apply, (Fin.succ_ne_zero _).symm]
  have h0 : ∀ (i : Fin n), sens 0 i = - ∑ l, W l i := by
    intro i
    simp [sens, Matrix.vecMul, dotProduct, Pi.single_apply, Fin.succ_ne_zero]
  refine ⟨sens, ?_, fun i => by simp only [h0, hs], fun i j => ?_⟩
  · intro k
    rw [hcalc]
    unfold fromDiffs
    rw [columns_ofFn, vector_ofFn]
    simp only [hdet, if_false]
    exact ⟨_, rfl⟩
  · rw [hC, sandwich_apply, propagated, Fin.sum_univ_succ, vector_ofFn]
    simp only [hs, add_mul, Finset.sum_add_distrib]
    rw [mul_sub, Finset.mul_sum]
    have : ∀ l, variances 0 * W l i * W l j = variances 0 * (W l i * W l j) := fun l => mul_assoc _ _ _
    simp only [this]
    ring

/-- **C39 for `n+1` points, provable part**: right if there is one gate or if the value at the base
point is exact.  Missing: the correlation of the differences, `covariance_propagated_refuted`. -/
theorem covariance_propagated_partial {n : Nat} (p : Fin (n + 1) → Vec n)
    (values variances : Fin (n + 1) → ℝ) (hcase : n = 1 ∨ variances 0 = 0)
    (g : Vec n) (C : Matrix (Fin n) (Fin n) ℝ)
    (h : calculateGradient (List.ofFn p) (List.ofFn values) (List.ofFn variances) = .ok (g, C)) :
    ∃ sens, IsSensitivity p sens ∧ C = propagated sens variances := by
  obtain ⟨sens, hsens, h0, hC⟩ := covariance_base p values variances g C h
  refine ⟨sens, hsens, ?_⟩
  ext i j
  rw [hC]
  rcases hcase with rfl | hv
  · simp [h0]
  · simp [hv]

/-- The points 0, e₁, e₂ of the plane. -/
def corner : Fin 3 → Vec 2 := ![![0, 0], ![1, 0], ![0, 1]]

/-- **C39 refuted for `n+1` points**: with variance 1 at the base point of 0, e₁, e₂ and exact
values otherwise the two gradient components are correlated, but the code returns the
covariance 0. -/
theorem covariance_propagated_refuted :
    ∃ g C, calculateGradient (List.ofFn corner) (List.ofFn fun _ : Fin 3 => (0 : ℝ))
        (List.ofFn (![1, 0, 0] : Fin 3 → ℝ)) = .ok (g, C) ∧
      C 0 1 = 0 ∧ ∀ sens, IsSensitivity corner sens → propagated sens ![1, 0, 0] 0 1 = 1 := by
  have hid : (Matrix.of fun i k => (corner (Fin.succ k) - corner 0 : Vec 2) i) = 1 := by
    ext i k
    fin_cases i <;> fin_cases k <;> simp [corner]
  have hcalc : ∀ v s : Fin 3 → ℝ, calculateGradient (List.ofFn corner) (List.ofFn v) (List.ofFn s) =
      .ok (fun k : Fin 2 => v k.succ - v 0, Matrix.diagonal fun k : Fin 2 => s k.succ + s 0) := by
    intro v s
    unfold calculateGradient
    rw [if_neg (by simp), if_neg (by simp [List.ofFn_succ]), if_pos (by simp), baseDiffs_ofFn,
      baseDiffs_ofFn, baseSums_ofFn]
    unfold fromDiffs
    rw [columns_ofFn, vector_ofFn, vector_ofFn, hid]
    simp
  refine ⟨_, _, hcalc _ _, by simp, ?_⟩
  intro sens hsens
  obtain ⟨C, hC⟩ := hsens 0
  rw [hcalc] at hC
  simp only [Except.ok.injEq, Prod.mk.injEq] at hC
  have h := hC.1
  have h00 : sens 0 0 = -1 := by rw [← h]; simp
  have h01 : sens 0 1 = -1 := by rw [← h]; simp
  rw [propagated, Fin.sum_univ_three]
  simp [h00, h01]

end Qtune.Gradient
