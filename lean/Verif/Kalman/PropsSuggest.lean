import Verif.Kalman.SuggestSpec
import Verif.Kalman.PropsFading

/-! # The suggested difference -/

namespace Qtune.Kalman

open Matrix

variable {m n : Nat}

/-- The place of entry `(k, i)`. -/
def place (k : Fin m) (i : Fin n) : Fin (m * n) := ⟨k.1 * n + i.1, flat_lt k i⟩

theorem place_eq (k : Fin m) (i : Fin n) : place k i = finProdFinEquiv (k, i) := by
  apply Fin.ext
  simp [place, finProdFinEquiv]
  ring

theorem place_div (k : Fin m) (i : Fin n) : (place k i).divNat = k := by
  rw [place_eq]
  exact congrArg Prod.fst (finProdFinEquiv.symm_apply_apply (k, i))

theorem place_mod (k : Fin m) (i : Fin n) : (place k i).modNat = i := by
  rw [place_eq]
  exact congrArg Prod.snd (finProdFinEquiv.symm_apply_apply (k, i))

theorem place_surj (j : Fin (m * n)) : place j.divNat j.modNat = j := by
  rw [place_eq]
  exact finProdFinEquiv.apply_symm_apply j

theorem sum_place (g : Fin (m * n) → ℝ) : ∑ j, g j = ∑ k : Fin m, ∑ i : Fin n, g (place k i) := by
  rw [← finProdFinEquiv.sum_comp, Fintype.sum_prod_type]
  simp only [place_eq]

/-- A vector in the part of value `k`. -/
noncomputable def lift (k : Fin m) (u : Fin n → ℝ) : Fin (m * n) → ℝ := fun j => if j.divNat = k then u j.modNat else 0

theorem lift_place (k k' : Fin m) (u : Fin n → ℝ) (i : Fin n) : lift k u (place k' i) = if k' = k then u i else 0 := by
  unfold lift
  rw [place_div, place_mod]

theorem lift_len (k : Fin m) (u : Fin n → ℝ) : sqLen (lift k u) = sqLen u := by
  unfold sqLen
  rw [sum_place, Finset.sum_eq_single k]
  · simp [lift_place]
  · intro k' _ h
    simp [lift_place, h]
  · intro h; exact absurd (Finset.mem_univ k) h

theorem lift_variance (f : KG m n) (k : Fin m) (u : Fin n → ℝ) : variance f.P (lift k u) = f.uncertainty k u := by
  unfold variance KG.uncertainty variance
  rw [sum_place, Finset.sum_eq_single k]
  · refine Finset.sum_congr rfl fun i _ => ?_
    rw [sum_place, Finset.sum_eq_single k]
    · simp [lift_place]
      rfl
    · intro k' _ h
      simp [lift_place, h]
    · intro h; exact absurd (Finset.mem_univ k) h
  · intro k' _ h
    simp [lift_place, h]
  · intro h; exact absurd (Finset.mem_univ k) h

/-- Not only unit vectors. -/
theorem variance_le_len {k : Nat} {A V : Matrix (Fin k) (Fin k) ℝ} {w : Fin k → ℝ}
    (hV : ∀ i j, ∑ a, V a i * V a j = if i = j then 1 else 0)
    (hA : ∀ a j, ∑ b, A a b * V b j = w j * V a j) {M : ℝ} (hM : ∀ j, w j ≤ M) (u : Fin k → ℝ) :
    variance A u ≤ M * sqLen u := by
  obtain ⟨h1, h2⟩ := spectral hV hA u
  rw [h2]
  calc ∑ j, w j * (∑ a, V a j * u a) ^ 2 ≤ ∑ j, M * (∑ a, V a j * u a) ^ 2 :=
        Finset.sum_le_sum fun j _ => mul_le_mul_of_nonneg_right (hM j) (sq_nonneg _)
    _ = M * sqLen u := by rw [← Finset.mul_sum, h1]; rfl

/-- What is suggested. -/
theorem suggestion_eq {eigh : Eigh} (heigh : EighSpec eigh) (f : KG m n) (hP : f.P.PosSemidef) (hmn : 0 < m * n) :
    ∃ (v : Fin (m * n) → ℝ) (lam : ℝ) (k : Fin m), f.suggestion eigh = .ok (fun i => v (place k i)) ∧ sqLen v = 1 ∧
      f.P *ᵥ v = lam • v ∧ (fun i => v (place k i)) ≠ 0 ∧ (∀ k' < k, ∀ i, v (place k' i) = 0) ∧
      ∀ u, variance f.P u ≤ lam * sqLen u := by
  obtain ⟨hV, hA⟩ := heigh _ f.P (symm_of_posSemidef hP)
  set w := (eigh _ f.P).1 with hw
  set V := (eigh _ f.P).2 with hVdef
  cases harg : (List.finRange (m * n)).argmax w with
  | none =>
    rw [List.argmax_eq_none] at harg
    have := congrArg List.length harg
    rw [List.length_finRange, List.length_nil] at this
    omega
  | some j =>
    have hmax : ∀ i, w i ≤ w j := fun i => List.le_of_mem_argmax (List.mem_finRange i) harg
    have hlen : sqLen (fun a => V a j) = 1 := by simpa [sqLen, sq] using hV j j
    have hsqrt : ∀ k : Fin m, Real.sqrt (∑ i : Fin n, V (place k i) j ^ 2) = 0 ↔ ∀ i : Fin n, V (place k i) j = 0 := by
      intro k
      rw [Real.sqrt_eq_zero (Finset.sum_nonneg fun _ _ => sq_nonneg _),
        Finset.sum_eq_zero_iff_of_nonneg fun _ _ => sq_nonneg _]
      simp
    cases hfind : (List.finRange m).find? fun k => Real.sqrt (∑ i : Fin n, V (place k i) j ^ 2) ≠ 0 with
    | none =>
      rw [List.find?_eq_none] at hfind
      have hz : sqLen (fun a => V a j) = 0 := by
        unfold sqLen
        rw [sum_place]
        refine Finset.sum_eq_zero fun k _ => Finset.sum_eq_zero fun i _ => ?_
        have := hfind k (List.mem_finRange k)
        simp only [ne_eq, decide_not, Bool.not_eq_eq_eq_not, Bool.not_true, decide_eq_false_iff_not, not_not] at this
        show V (place k i) j ^ 2 = 0
        rw [(hsqrt k).1 this i]
        ring
      rw [hlen] at hz
      exact absurd hz one_ne_zero
    | some k =>
      refine ⟨fun a => V a j, w j, k, ?_, hlen, ?_, ?_, ?_, variance_le_len hV hA hmax⟩
      · unfold KG.suggestion
        rw [← hw, ← hVdef]
        simp only [harg]
        have : (List.finRange m).find? (fun k : Fin m =>
            decide (Real.sqrt (∑ i : Fin n, V ⟨k.1 * n + i.1, flat_lt k i⟩ j ^ 2) ≠ 0)) = some k := by
          rw [← hfind]
          congr
        simp only [this]
        rfl
      · funext a
        exact hA a j
      · have := List.find?_some hfind
        simp only [ne_eq, decide_not, Bool.not_eq_eq_eq_not, Bool.not_true, decide_eq_false_iff_not] at this
        rw [hsqrt] at this
        intro h
        exact this fun i => congrFun h i
      · intro k' hk'
        rw [List.find?_eq_some_iff_getElem] at hfind
        obtain ⟨-, i, hi, hik, hfirst⟩ := hfind
        have hik' : i = k.1 := by
          have := congrArg Fin.val hik
          simpa using this
        have h1 := hfirst k'.1 (by rw [hik']; exact hk')
        simp only [List.getElem_finRange, ne_eq, decide_not, Bool.not_not, decide_eq_true_eq] at h1
        exact (hsqrt k').1 h1

/-- **C124** (a).  The suggested difference of a filter with positive semidefinite covariance exists, is not zero
and is not longer than 1; for one value it has length 1.  If the errors of different values are not coupled (in
particular for one value), it is a direction in which the change of some value is known worst. -/
theorem suggestion_partial {eigh : Eigh} (heigh : EighSpec eigh) (f : KG m n) (hP : f.P.PosSemidef)
    (hmn : 0 < m * n) :
    ∃ d, f.suggestion eigh = .ok d ∧ d ≠ 0 ∧ sqLen d ≤ 1 ∧ (m = 1 → sqLen d = 1) ∧
      (Uncoupled f.P → f.MostUncertain d) := by
  obtain ⟨v, lam, k, hs, hlen, heig, hne, -, hmax⟩ := suggestion_eq heigh f hP hmn
  have hsum : ∑ k' : Fin m, sqLen (fun i => v (place k' i)) = 1 := by
    rw [← hlen]
    unfold sqLen
    rw [sum_place]
  refine ⟨_, hs, hne, ?_, ?_, ?_⟩
  · rw [← hsum]
    exact Finset.single_le_sum (f := fun k' : Fin m => sqLen (fun i => v (place k' i))) (fun _ _ => sqLen_nonneg _)
      (Finset.mem_univ k)
  · rintro rfl
    rw [Fin.sum_univ_one] at hsum
    rwa [Subsingleton.elim k 0]
  · intro hun
    refine ⟨hne, k, fun k' u => ?_⟩
    have hk : f.uncertainty k (fun i => v (place k i)) = lam * sqLen (fun i => v (place k i)) := by
      have hpart : ∀ i, (f.P *ᵥ lift k fun i => v (place k i)) (place k i) = lam * v (place k i) := by
        intro i
        have h1 := congrFun heig (place k i)
        rw [Pi.smul_apply, smul_eq_mul] at h1
        rw [← h1]
        unfold mulVec dotProduct
        refine Finset.sum_congr rfl fun j _ => ?_
        by_cases hj : j.divNat = k
        · unfold lift
          subst hj
          rw [if_pos rfl]
          show _ * v (place j.divNat j.modNat) = _
          rw [place_surj]
        · show f.P (place k i) j * _ = f.P (place k i) j * _
          rw [hun (place k i) j (by rw [place_div]; exact fun h => hj h.symm)]
          ring
      rw [← lift_variance, variance_eq]
      unfold dotProduct
      rw [sum_place, Finset.sum_eq_single k]
      · unfold sqLen
        rw [Finset.mul_sum]
        refine Finset.sum_congr rfl fun i _ => ?_
        rw [hpart i, lift_place, if_pos rfl]
        ring
      · intro k'' _ h
        simp [lift_place, h]
      · intro h; exact absurd (Finset.mem_univ k) h
    rw [hk]
    have h1 := hmax (lift k' u)
    rw [lift_variance, lift_len] at h1
    have := mul_le_mul_of_nonneg_right h1 (sqLen_nonneg (fun i => v (place k i)))
    linarith

/-! ### When the errors of different values stay uncoupled -/

/-- A matrix between indices that belong to values. -/
def Apart {α β : Type} (ρ : α → Fin m) (σ : β → Fin m) (M : Matrix α β ℝ) : Prop := ∀ a b, ρ a ≠ σ b → M a b = 0

theorem Apart.mul {α β γ : Type} [Fintype β] {ρ : α → Fin m} {σ : β → Fin m} {τ : γ → Fin m} {M : Matrix α β ℝ}
    {N : Matrix β γ ℝ} (h1 : Apart ρ σ M) (h2 : Apart σ τ N) : Apart ρ τ (M * N) := by
  intro a c hac
  rw [mul_apply]
  refine Finset.sum_eq_zero fun b _ => ?_
  by_cases h : ρ a = σ b
  · rw [h2 b c fun h' => hac (h.trans h'), mul_zero]
  · rw [h1 a b h, zero_mul]

theorem Apart.add {α β : Type} {ρ : α → Fin m} {σ : β → Fin m} {M N : Matrix α β ℝ} (h1 : Apart ρ σ M)
    (h2 : Apart ρ σ N) : Apart ρ σ (M + N) := fun a b h => by rw [Matrix.add_apply, h1 a b h, h2 a b h, add_zero]

theorem Apart.sub {α β : Type} {ρ : α → Fin m} {σ : β → Fin m} {M N : Matrix α β ℝ} (h1 : Apart ρ σ M)
    (h2 : Apart ρ σ N) : Apart ρ σ (M - N) := fun a b h => by rw [Matrix.sub_apply, h1 a b h, h2 a b h, sub_zero]

theorem Apart.smul {α β : Type} {ρ : α → Fin m} {σ : β → Fin m} {M : Matrix α β ℝ} (t : ℝ) (h1 : Apart ρ σ M) :
    Apart ρ σ (t • M) := fun a b h => by rw [Matrix.smul_apply, h1 a b h, smul_zero]

theorem Apart.transpose {α β : Type} {ρ : α → Fin m} {σ : β → Fin m} {M : Matrix α β ℝ} (h1 : Apart ρ σ M) :
    Apart σ ρ Mᵀ := fun a b h => h1 b a fun h' => h h'.symm

theorem Apart.one {α : Type} [DecidableEq α] (ρ : α → Fin m) : Apart ρ ρ (1 : Matrix α α ℝ) := fun a b h => by
  rw [one_apply_ne]
  rintro rfl
  exact h rfl

theorem Apart.inv {S : Matrix (Fin m) (Fin m) ℝ} (h : Apart id id S) : Apart id id S⁻¹ := by
  have hS : S = diagonal fun k => S k k := by
    ext a b
    by_cases hab : a = b
    · subst hab; rw [diagonal_apply_eq]
    · rw [diagonal_apply_ne _ hab]; exact h a b hab
  rw [hS, inv_diagonal]
  intro a b hab
  exact diagonal_apply_ne _ hab

theorem matrixH_apart (d : Fin n → ℝ) : Apart (m := m) id Fin.divNat (matrixH m d) := by
  intro k j h
  unfold matrixH
  rw [dif_neg]
  rintro ⟨h1, h2⟩
  apply h
  apply Fin.ext
  show k.1 = j.1 / n
  symm
  have hn : 0 < n := by omega
  generalize j.1 = j' at *
  exact Nat.div_eq_of_lt_le h1 (by rw [Nat.succ_mul]; exact h2)

/-- **C124** (b).  Errors of different values that are not coupled at first stay so if the noise of the measurements
and the process noise do not couple them: after any calls of `update`, also if some of them raise. -/
theorem stays_uncoupled (f : KG m n) (hF : Uncoupled f.F) (hP : Uncoupled f.P) (hQ : Uncoupled f.Q)
    (hR : ∀ k l, k ≠ l → f.R k l = 0) (cs : List (Call m n))
    (hcs : ∀ c ∈ cs, (∀ R, c.R = some R → ∀ k l, k ≠ l → R k l = 0) ∧ ∀ Q, c.Q = some Q → Uncoupled Q) :
    Uncoupled (calls cs f).P := by
  induction cs generalizing f with
  | nil => exact hP
  | cons c cs ih =>
    obtain ⟨hcR, hcQ⟩ := hcs c (by simp)
    have hpre : Uncoupled (if c.predict then f.predict c.Q else f).P := by
      split
      · have hQ' : Uncoupled (c.Q.getD f.Q) := by
          cases h : c.Q with
          | none => exact hQ
          | some Q => exact hcQ Q h
        exact (((Apart.mul hF hP).mul (Apart.transpose hF)).smul _).add hQ'
      · exact hP
    have hkeep : (if c.predict then f.predict c.Q else f).F = f.F ∧ (if c.predict then f.predict c.Q else f).Q = f.Q ∧
        (if c.predict then f.predict c.Q else f).R = f.R := by
      split <;> exact ⟨rfl, rfl, rfl⟩
    set g := (if c.predict then f.predict c.Q else f) with hg
    have hR' : Apart id id (c.R.getD f.R) := by
      cases h : c.R with
      | none => exact hR
      | some R => exact hcR R h
    have hH := matrixH_apart (m := m) c.diff
    have hS : Apart id id (g.innovation (c.R.getD f.R) (matrixH m c.diff)) :=
      (hH.mul (Apart.mul hpre hH.transpose)).add hR'
    have hK : Apart Fin.divNat id (g.gain (c.R.getD f.R) (matrixH m c.diff)) :=
      (Apart.mul hpre hH.transpose).mul hS.inv
    have hIKH := (Apart.one (m := m) (Fin.divNat (m := m) (n := n))).sub (hK.mul hH)
    unfold calls
    refine ih _ ?_ ?_ ?_ ?_ fun c' hc' => hcs c' (by simp [hc'])
    all_goals
      unfold KG.update Filter.correct
      rw [← hg]
      dsimp only
      rw [hkeep.2.2]
      split
    · exact hkeep.1 ▸ hF
    · exact hkeep.1 ▸ hF
    · exact hpre
    · exact ((hIKH.mul hpre).mul hIKH.transpose).add ((hK.mul hR').mul hK.transpose)
    · exact hkeep.2.1 ▸ hQ
    · exact hkeep.2.1 ▸ hQ
    · exact hkeep.2.2 ▸ hR
    · exact hkeep.2.2 ▸ hR

/-- **C124** (c).  With coupled errors the suggestion need not be a direction in which anything is known worst: the
first part of the eigenvector that is not zero is taken, however small it is. -/
theorem suggestion_refuted {eigh : Eigh} (heigh : EighSpec eigh) :
    ∃ (f : KG 2 2) (d : Fin 2 → ℝ), f.P.PosSemidef ∧ f.suggestion eigh = .ok d ∧ ¬ f.MostUncertain d := by
  let b : Fin (2 * 2) → ℝ := fun j => if j.1 = 0 then 1 else if j.1 = 3 then 2 else 0
  have hpsd : (vecMulVec b b).PosSemidef := by
    have := posSemidef_vecMulVec_self_star b
    simpa using this
  let f : KG 2 2 := KG.new none none (some (vecMulVec b b)) none none 1
  have hP : f.P = vecMulVec b b := rfl
  obtain ⟨v, lam, k, hs, hlen, heig, hne, hfirst, hmax⟩ := suggestion_eq heigh f (by rw [hP]; exact hpsd) (by norm_num)
  have hbb : b ⬝ᵥ b = 5 := by
    rw [dotProduct, sum_place]
    simp [Fin.sum_univ_two, b, place]
    norm_num
  have hPv : ∀ u, f.P *ᵥ u = (b ⬝ᵥ u) • b := by
    intro u
    rw [hP, vecMulVec_mulVec]
    funext j
    simp [mul_comm]
  have hlam : 5 ≤ lam := by
    have := hmax b
    rw [variance_eq, hPv, dotProduct_smul, sqLen_eq, hbb, smul_eq_mul] at this
    linarith
  have hv : ∀ j, v j = (b ⬝ᵥ v) / lam * b j := by
    intro j
    have h1 := congrFun heig j
    rw [hPv, Pi.smul_apply, Pi.smul_apply, smul_eq_mul, smul_eq_mul] at h1
    field_simp
    linarith
  set c := (b ⬝ᵥ v) / lam with hc
  have hc0 : c ≠ 0 := by
    intro h0
    have : sqLen v = 0 := by
      unfold sqLen
      refine Finset.sum_eq_zero fun j _ => ?_
      rw [hv j, h0]
      ring
    rw [hlen] at this
    exact one_ne_zero this
  have hk : k = 0 := by
    by_contra hk
    have hk1 : (0 : Fin 2) < k := Fin.pos_iff_ne_zero.2 hk
    have := hfirst 0 hk1 0
    rw [hv] at this
    simp [b, place] at this
    exact hc0 this
  subst hk
  have hd : (fun i => v (place (0 : Fin 2) i)) = ![c, 0] := by
    funext i
    rw [hv]
    fin_cases i <;> simp [b, place]
  rw [hd] at hs
  refine ⟨f, _, by rw [hP]; exact hpsd, hs, ?_⟩
  rintro ⟨-, k, h⟩
  have h1 := h 1 ![0, 1]
  have hc2 : 0 < c ^ 2 := by positivity
  simp only [KG.uncertainty, variance, hP, Fin.sum_univ_two, sqLen, vecMulVec_apply] at h1
  fin_cases k <;> simp [b] at h1 <;> nlinarith

/-- The filter for two values with the defaults meets the hypotheses of `stays_uncoupled`. -/
example : ∃ f : KG 2 3, f.P.PosSemidef ∧ Uncoupled f.F ∧ Uncoupled f.P ∧ Uncoupled f.Q ∧ ∀ k l, k ≠ l → f.R k l = 0 :=
  ⟨KG.new none none none none none 1, PosSemidef.one, Apart.one _, Apart.one _, fun _ _ _ => rfl,
    fun _ _ h => one_apply_ne h⟩

end Qtune.Kalman
