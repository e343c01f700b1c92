import Verif.Gradient.JacobianModel

/-!
# C176: the Jacobian matrix from the minimal number of points

* `jacobian_exact_base`, `jacobian_exact_pairs`: exact for affine devices, `EvaluationError` for dependent differences.
* `jacobian_wrong_number`: when `RuntimeError` is raised.
* `rows_agree`: the rows are the gradients of `calculate_gradient_non_orthogonal` (C38).
-/

namespace Qtune.Gradient

/-! ## Specification -/

/-- `f` is affine with the Jacobian matrix `A`. -/
def IsAffineMap {m n : Nat} (f : Vec n → Vec m) (A : Matrix (Fin m) (Fin n) ℝ) : Prop := ∃ b : Vec m, ∀ x j, f x j = b j + ∑ i, A j i * x i

/-! ## Lemmas -/

theorem baseDiffs_component {m : Nat} (j : Fin m) : ∀ l : List (Vec m), (baseDiffs l).map (· j) = baseDiffs (l.map (· j))
  | [] => rfl
  | x :: xs => by simp [baseDiffs]

theorem pairDiffs_component {m : Nat} (j : Fin m) : ∀ l : List (Vec m), (pairDiffs l).map (· j) = pairDiffs (l.map (· j))
  | [] => rfl
  | [_] => rfl
  | a :: b :: rest => by simp [pairDiffs, pairDiffs_component j rest]

theorem getD_component {m : Nat} (j : Fin m) (l : List (Vec m)) (k : Nat) : l.getD k 0 j = (l.map (· j)).getD k 0 := by
  rw [List.getD_eq_getElem?_getD, List.getD_eq_getElem?_getD, List.getElem?_map]
  cases l[k]? <;> rfl

theorem jacobianOf_rows {m n : Nat} (vd : List (Vec n)) (pd : List (Vec m)) (s : List ℝ) :
    (∀ J, jacobianOf vd pd = .ok J → ∀ j, ∃ C, fromDiffs vd (pd.map (· j)) s = .ok (J j, C)) ∧
    (∀ e, jacobianOf vd pd = .error e → ∀ j : Fin m, fromDiffs vd (pd.map (· j)) s = .error e) := by
  unfold jacobianOf fromDiffs
  dsimp only
  by_cases h : (columns vd).det = 0
  · simp [h]
  · simp only [h, if_false]
    refine ⟨fun J hJ j => ?_, fun e he => by cases he⟩
    rw [Except.ok.injEq] at hJ
    refine ⟨_, by rw [← hJ]; congr 2; funext i; simp [Matrix.mul_apply, Matrix.vecMul, dotProduct, vector, getD_component]⟩

/-- Each row of the result is what `calculate_gradient_non_orthogonal` returns for this parameter, and the exceptions are the same. -/
theorem rows_agree {m n : Nat} (parameters : List (Vec m)) (points : List (Vec n)) (variances : List ℝ) :
    (∀ J, gradientMinEvaluations parameters points = .ok J → ∀ j, ∃ C, calculateGradient points (parameters.map (· j)) variances = .ok (J j, C)) ∧
    (∀ e, gradientMinEvaluations parameters points = .error e → ∀ j : Fin m, calculateGradient points (parameters.map (· j)) variances = .error e) := by
  unfold gradientMinEvaluations calculateGradient
  simp only [List.length_map]
  by_cases h1 : points.length = parameters.length
  swap
  · rw [if_pos h1]
    exact ⟨(fun J h => by cases h), (fun e h j => by rw [if_pos (Ne.symm h1)]; cases h; rfl)⟩
  rw [if_neg (by simpa using h1)]
  simp only [h1, ne_eq, not_true_eq_false, if_false]
  by_cases h2 : points = []
  · simp only [h2, if_true]
    exact ⟨(fun J h => by cases h), (fun e h j => by cases h; rfl)⟩
  simp only [h2, if_false]
  by_cases h3 : parameters.length = n + 1
  · simp only [h3, if_true]
    have := jacobianOf_rows (baseDiffs points) (baseDiffs parameters) (baseSums variances)
    simpa only [baseDiffs_component] using this
  simp only [h3, if_false]
  by_cases h4 : parameters.length = 2 * n
  · simp only [h4, if_true]
    have := jacobianOf_rows (pairDiffs points) (pairDiffs parameters) (pairSums variances)
    simpa only [pairDiffs_component] using this
  · simp only [h4, if_false]
    exact ⟨(fun J h => by cases h), (fun e h j => by cases h; rfl)⟩

theorem jacobianOf_exact {m n : Nat} (d : Fin n → Vec n) (A : Matrix (Fin m) (Fin n) ℝ) (pd : Fin n → Vec m)
    (hpd : ∀ k j, pd k j = ∑ i, A j i * d k i) :
    (LinearIndependent ℝ d → jacobianOf (List.ofFn d) (List.ofFn pd) = .ok A) ∧
    (¬ LinearIndependent ℝ d → jacobianOf (List.ofFn d) (List.ofFn pd) = .error .evaluationError) := by
  unfold jacobianOf
  rw [columns_ofFn]
  constructor
  · intro hind
    have hdet := (det_ne_zero_iff d).2 hind
    simp only [hdet, if_false, Except.ok.injEq]
    have : Matrix.of (fun j (k : Fin n) => (List.ofFn pd).getD k 0 j) = A * Matrix.of fun i k => d k i := by
      ext j k
      simp [Matrix.mul_apply, hpd]
    rw [this, Matrix.mul_assoc, Matrix.mul_nonsing_inv _ (isUnit_iff_ne_zero.2 hdet), Matrix.mul_one]
  · intro hind
    rw [← det_ne_zero_iff, not_not] at hind
    simp [hind]

theorem IsAffineMap.sub {m n : Nat} {f : Vec n → Vec m} {A : Matrix (Fin m) (Fin n) ℝ} (h : IsAffineMap f A) (x y : Vec n) (j : Fin m) :
    (f x - f y) j = ∑ i, A j i * (x - y) i := by
  obtain ⟨b, hb⟩ := h
  simp only [Pi.sub_apply, hb, mul_sub, Finset.sum_sub_distrib]
  ring

/-! ## C176 -/

/-- **C176**, one point more than gates: the Jacobian matrix of an affine device is returned exactly if the differences to the first point are
linearly independent, and `EvaluationError` is raised otherwise. -/
theorem jacobian_exact_base {m n : Nat} (p : Fin (n + 1) → Vec n) (f : Vec n → Vec m) (A : Matrix (Fin m) (Fin n) ℝ) (hf : IsAffineMap f A) :
    (LinearIndependent ℝ (fun k : Fin n => p k.succ - p 0) →
      gradientMinEvaluations (List.ofFn fun k => f (p k)) (List.ofFn p) = .ok A) ∧
    (¬ LinearIndependent ℝ (fun k : Fin n => p k.succ - p 0) →
      gradientMinEvaluations (List.ofFn fun k => f (p k)) (List.ofFn p) = .error .evaluationError) := by
  unfold gradientMinEvaluations
  rw [if_neg (by simp), if_neg (by simp [List.ofFn_succ]), if_pos (by simp), baseDiffs_ofFn, baseDiffs_ofFn]
  exact jacobianOf_exact _ A _ fun k j => hf.sub _ _ j

/-- **C176**, two points for each gate, number `2k` and `2k+1`: the same with the differences of these pairs. -/
theorem jacobian_exact_pairs {m n : Nat} (hn : n ≠ 0) (p : Fin (2 * n) → Vec n) (f : Vec n → Vec m) (A : Matrix (Fin m) (Fin n) ℝ)
    (hf : IsAffineMap f A) :
    (LinearIndependent ℝ (fun k : Fin n => p (sndOf k) - p (fstOf k)) →
      gradientMinEvaluations (List.ofFn fun k => f (p k)) (List.ofFn p) = .ok A) ∧
    (¬ LinearIndependent ℝ (fun k : Fin n => p (sndOf k) - p (fstOf k)) →
      gradientMinEvaluations (List.ofFn fun k => f (p k)) (List.ofFn p) = .error .evaluationError) := by
  by_cases h1 : n = 1
  · subst h1
    have h := jacobian_exact_base (n := 1) p f A hf
    have he : (fun k : Fin 1 => p (sndOf k) - p (fstOf k)) = fun k : Fin 1 => p k.succ - p 0 := by
      funext k; fin_cases k; rfl
    rw [he]
    exact h
  · unfold gradientMinEvaluations
    rw [if_neg (by simp), if_neg (by simp [List.ofFn_eq_nil_iff, hn]), if_neg (by simp; omega), if_pos (by simp), pairDiffs_ofFn, pairDiffs_ofFn]
    exact jacobianOf_exact _ A _ fun k j => hf.sub _ _ j

/-- **C176**: no other exceptions.  With the same number of points and parameters, `RuntimeError` is raised exactly if there are points, but
neither one more than gates nor two for each gate. -/
theorem jacobian_wrong_number {m n : Nat} (parameters : List (Vec m)) (points : List (Vec n)) (hlen : points.length = parameters.length)
    (h0 : points ≠ []) :
    gradientMinEvaluations parameters points = .error (.runtimeError "Invalid number of points") ↔
      points.length ≠ n + 1 ∧ points.length ≠ 2 * n := by
  unfold gradientMinEvaluations
  rw [if_neg (by simpa using hlen), if_neg h0]
  have hj : ∀ vd : List (Vec n), ∀ pd : List (Vec m), jacobianOf vd pd ≠ .error (.runtimeError "Invalid number of points") := by
    intro vd pd
    unfold jacobianOf
    split <;> simp
  constructor
  · intro h
    by_cases h1 : points.length = n + 1
    · rw [if_pos h1] at h; exact absurd h (hj _ _)
    · rw [if_neg h1] at h
      by_cases h2 : points.length = 2 * n
      · rw [if_pos h2] at h; exact absurd h (hj _ _)
      · exact ⟨h1, h2⟩
  · rintro ⟨h1, h2⟩
    rw [if_neg h1, if_neg h2]

/-- Three points in the plane and two parameters. -/
example : gradientMinEvaluations (List.ofFn fun k : Fin 3 => (fun x : Vec 2 => (![x 0 + 2 * x 1, 3 * x 0] : Vec 2))
    ((![![1, 1], ![3, 1], ![2, 5]] : Fin 3 → Vec 2) k)) (List.ofFn (![![1, 1], ![3, 1], ![2, 5]] : Fin 3 → Vec 2)) = .ok !![1, 2; 3, 0] := by
  refine (jacobian_exact_base (n := 2) (![![1, 1], ![3, 1], ![2, 5]] : Fin 3 → Vec 2) (fun x : Vec 2 => (![x 0 + 2 * x 1, 3 * x 0] : Vec 2))
    !![1, 2; 3, 0] ⟨0, fun x j => ?_⟩).1 ?_
  · fin_cases j <;> simp [Fin.sum_univ_two]
  · rw [← det_ne_zero_iff]
    simp [Matrix.det_fin_two]
    norm_num

end Qtune.Gradient
