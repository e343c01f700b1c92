import Verif.Kalman.EstimatorTuned
import Mathlib.Algebra.Order.Chebyshev

/-! # Requests below tuned parameters with several free directions (C84) -/

namespace Qtune.Kalman

open Matrix

variable {n r k : Nat}

theorem variance_combination {ι : Type} (s : Finset ι) {C : Matrix (Fin n) (Fin n) ℝ}
    (hC : ∀ v, 0 ≤ variance C v) (hsymm : Cᵀ = C) {m : ℝ} (hm : 0 ≤ m) (b : ι → Fin n → ℝ)
    (hb : ∀ a ∈ s, variance C (b a) ≤ m) (c : ι → ℝ) :
    variance C (fun i => ∑ a ∈ s, c a * b a i) ≤ m * (∑ a ∈ s, |c a|) ^ 2 := by
  classical
  -- Cauchy-Schwarz for two of the vectors
  have hbil : ∀ u v : Fin n → ℝ, ∀ t : ℝ,
      variance C (fun i => u i + t * v i) = variance C u + 2 * t * (u ⬝ᵥ (C *ᵥ v)) + t ^ 2 * variance C v := by
    intro u v t
    have h1 : (fun i => u i + t * v i) = u + t • v := rfl
    have h2 : v ⬝ᵥ (C *ᵥ u) = u ⬝ᵥ (C *ᵥ v) := by
      rw [dotProduct_mulVec, ← mulVec_transpose, hsymm, dotProduct_comm]
    rw [h1, variance_eq, variance_eq, variance_eq]
    simp only [mulVec_add, mulVec_smul, add_dotProduct, dotProduct_add, smul_dotProduct, dotProduct_smul,
      smul_eq_mul, h2]
    ring
  have hcs : ∀ u v : Fin n → ℝ, (u ⬝ᵥ (C *ᵥ v)) ^ 2 ≤ variance C u * variance C v := by
    intro u v
    have h := discrim_le_zero (a := variance C v) (b := 2 * (u ⬝ᵥ (C *ᵥ v))) (c := variance C u) (fun t => by
      have := hC (fun i => u i + t * v i)
      rw [hbil] at this
      nlinarith)
    unfold discrim at h
    nlinarith
  induction s using Finset.induction_on with
  | empty =>
    simp [variance]
  | insert a s ha ih =>
    have ih' := ih fun x hx => hb x (Finset.mem_insert_of_mem hx)
    set u : Fin n → ℝ := fun i => ∑ x ∈ s, c x * b x i with hu
    have hsum : (fun i => ∑ x ∈ insert a s, c x * b x i) = fun i => u i + c a * b a i := by
      funext i
      rw [Finset.sum_insert ha, add_comm]
    rw [hsum, hbil, Finset.sum_insert ha]
    set S := ∑ x ∈ s, |c x|
    have hS : 0 ≤ S := Finset.sum_nonneg fun _ _ => abs_nonneg _
    have hba := hb a (Finset.mem_insert_self a s)
    have h1 := hcs u (b a)
    have h2 : (u ⬝ᵥ (C *ᵥ b a)) ^ 2 ≤ (m * S) ^ 2 :=
      h1.trans ((mul_le_mul ih' hba (hC _) (by positivity)).trans (le_of_eq (by ring)))
    have h3 : |u ⬝ᵥ (C *ᵥ b a)| ≤ m * S := abs_le_of_sq_le_sq h2 (by positivity)
    have h4 : c a * (u ⬝ᵥ (C *ᵥ b a)) ≤ |c a| * (m * S) :=
      (le_abs_self _).trans (by rw [abs_mul]; exact mul_le_mul_of_nonneg_left h3 (abs_nonneg _))
    have h5 : c a ^ 2 * variance C (b a) ≤ |c a| ^ 2 * m := by
      rw [sq_abs]
      exact mul_le_mul_of_nonneg_left hba (sq_nonneg _)
    nlinarith

/-- **C84**, any number of free directions: if nothing is requested, the variance is at most the limit
times the sum of the squared lengths of the vectors of the null space, in every unit direction that
does not change the tuned parameters.  (Each of these vectors has one entry 1 at its own free column.)
Missing: the limit itself, see `tuned_request_refuted`. -/
theorem tuned_request_bound_partial {nullspace : Nullspace} (hn : NullspaceSpec nullspace)
    {cols : Fin k → Fin n} (hc : Function.Injective cols) (J : Matrix (Fin r) (Fin k) ℝ)
    (f : KG 1 n) (hP : f.P.PosSemidef) (p : Fin n → ℝ) (value : Option ℝ) (eps : Fin n → ℝ) (m : ℝ)
    (hm : 0 < m) :
    let e := Est.new f p value (fun _ => .fin m) eps
    e.requireTuned nullspace cols J = none → ∀ v, UnitNull cols J v →
      variance e.cov v ≤ m * ((nullspace r k J).map fun b => ∑ a, b a ^ 2).sum := by
  classical
  intro e h v hv
  have h0 : n ≠ 0 := by
    rintro rfl
    have := hv.unit
    simp at this
  rw [requireTuned_eq _ _ _ _ _ _ _ _ h0] at h
  dsimp only at h
  have hdir : ∀ u ∈ directions nullspace cols J, variance e.cov u ≤ m := by
    intro u hu
    by_contra hlt
    push Not at hlt
    rw [if_pos ⟨u, hu, hlt⟩] at h
    split at h
    · rename_i harg
      rw [List.argmax_eq_none] at harg
      rw [harg] at hu
      cases hu
    · cases h
  have hs := hn r k J
  set N := nullspace r k J with hN
  obtain ⟨free, hf1, hf2, hf3⟩ := hs
  let L : Fin N.length → ℝ := fun a => Real.sqrt (∑ x, N.get a x ^ 2)
  have hpos : ∀ a, 0 < ∑ x, N.get a x ^ 2 := fun a => (ne_zero_of_mem hn (N.get_mem a)).2
  have hL : ∀ a, 0 < L a := fun a => Real.sqrt_pos.2 (hpos a)
  let b : Fin N.length → Fin n → ℝ := fun a => fill cols fun x => N.get a x / L a
  have hb : ∀ a, variance e.cov (b a) ≤ m := fun a => hdir _ (by
    unfold directions
    rw [List.map_map, List.mem_map]
    exact ⟨N.get a, N.get_mem a, rfl⟩)
  let c : Fin N.length → ℝ := fun a => v (cols (free a)) * L a
  have hvc : v = fun i => ∑ a ∈ Finset.univ, c a * b a i := by
    funext i
    by_cases hi : ∃ x, cols x = i
    · obtain ⟨x, rfl⟩ := hi
      have h1 := congrFun (hf3 _ hv.null) x
      simp only [Finset.sum_apply, Pi.smul_apply, smul_eq_mul] at h1
      rw [h1]
      refine Finset.sum_congr rfl fun a _ => ?_
      simp only [c, b, fill_col hc]
      rw [mul_assoc, mul_div_cancel₀ _ (hL a).ne']
    · push Not at hi
      rw [hv.support i hi]
      refine (Finset.sum_eq_zero fun a _ => ?_).symm
      simp only [b, fill_zero _ i hi, mul_zero]
  have hfree : Function.Injective free := by
    intro a a' haa
    by_contra hne
    have h1 := hf2 a a'
    rw [← haa, hf2 a a, if_pos rfl, if_neg hne] at h1
    norm_num at h1
  have hcols : Function.Injective fun a => cols (free a) := hc.comp hfree
  have hv1 : ∑ a, v (cols (free a)) ^ 2 ≤ 1 := by
    rw [← hv.unit, ← Finset.sum_image (s := Finset.univ) (g := fun a => cols (free a)) (f := fun i => v i ^ 2)
      fun a _ a' _ h => hcols h]
    exact Finset.sum_le_sum_of_subset_of_nonneg (Finset.subset_univ _) fun i _ _ => sq_nonneg _
  have hsymm : (e.cov)ᵀ = e.cov := by
    ext i j
    exact cov_symm (e := e) hP _ _
  have hvar := variance_combination Finset.univ (C := e.cov) (fun u => cov_nonneg (e := e) hP u) hsymm hm.le b
    (fun a _ => hb a) c
  rw [← hvc] at hvar
  refine hvar.trans (mul_le_mul_of_nonneg_left ?_ hm.le)
  have hcabs : ∀ a, |c a| = |v (cols (free a))| * L a := fun a => by
    simp only [c, abs_mul, abs_of_pos (hL a)]
  calc (∑ a, |c a|) ^ 2 = (∑ a, |v (cols (free a))| * L a) ^ 2 := by simp only [hcabs]
    _ ≤ (∑ a, |v (cols (free a))| ^ 2) * ∑ a, L a ^ 2 := Finset.sum_mul_sq_le_sq_mul_sq _ _ _
    _ ≤ 1 * ∑ a, L a ^ 2 := by
        refine mul_le_mul_of_nonneg_right ?_ (Finset.sum_nonneg fun _ _ => sq_nonneg _)
        simpa only [sq_abs] using hv1
    _ = (N.map fun b => ∑ a, b a ^ 2).sum := by
        rw [one_mul, ← Fin.sum_univ_fun_getElem]
        exact Finset.sum_congr rfl fun a _ => Real.sq_sqrt (hpos a).le

/-- Three gates, one of which changes the tuned parameter: two free directions.  A variance of 1/2 of each
gate is below the limit 1, nothing is requested. -/
example {nullspace : Nullspace} (hn : NullspaceSpec nullspace) :
    (Est.new (KG.new none none (some ((1 / 2 : ℝ) • (1 : Matrix (Fin (1 * 3)) (Fin (1 * 3)) ℝ))) none none 1 : KG 1 3)
      0 none (fun _ => .fin 1) 1).requireTuned nullspace (id : Fin 3 → Fin 3) !![1, 0, 0] = none := by
  rcases h : (Est.new (KG.new none none (some ((1 / 2 : ℝ) • (1 : Matrix (Fin (1 * 3)) (Fin (1 * 3)) ℝ))) none none 1 :
    KG 1 3) 0 none (fun _ => .fin 1) 1).requireTuned nullspace (id : Fin 3 → Fin 3) !![1, 0, 0] with _ | q
  · rfl
  · obtain ⟨v, hv, hlt, -⟩ := tuned_request_sound hn Function.injective_id _ _ _ _ _ 1 h
    have hc : (Est.new (KG.new none none (some ((1 / 2 : ℝ) • (1 : Matrix (Fin (1 * 3)) (Fin (1 * 3)) ℝ))) none none 1 :
      KG 1 3) 0 none (fun _ => .fin 1) 1).cov = (1 / 2 : ℝ) • (1 : Matrix (Fin 3) (Fin 3) ℝ) := rfl
    have h1 := hv.unit
    rw [hc, variance_eq, smul_mulVec, one_mulVec, dotProduct_smul, smul_eq_mul] at hlt
    rw [show v ⬝ᵥ v = ∑ i, v i ^ 2 from Finset.sum_congr rfl fun i _ => (sq (v i)).symm, h1] at hlt
    norm_num at hlt

theorem exists_bound (l : List ℝ) (h : ∀ x ∈ l, x < 1) : ∃ q, 0 < q ∧ q < 1 ∧ ∀ x ∈ l, x ≤ q := by
  induction l with
  | nil => exact ⟨1 / 2, by norm_num, by norm_num, fun x hx => nomatch hx⟩
  | cons a l ih =>
    obtain ⟨q, h0, h1, h2⟩ := ih fun x hx => h x (List.mem_cons_of_mem _ hx)
    refine ⟨max a q, lt_of_lt_of_le h0 (le_max_right _ _), max_lt (h a List.mem_cons_self) h1, fun x hx => ?_⟩
    rcases List.mem_cons.1 hx with rfl | hx
    · exact le_max_left _ _
    · exact (h2 x hx).trans (le_max_right _ _)

/-- **C84** is false whenever there are two independent directions that do not change the tuned
parameters: for every such Jacobian and every limit there is a covariance with which nothing is
requested although the variance exceeds the limit in such a direction. -/
theorem tuned_request_free_refuted {nullspace : Nullspace} (hn : NullspaceSpec nullspace)
    {cols : Fin k → Fin n} (hc : Function.Injective cols) (J : Matrix (Fin r) (Fin k) ℝ)
    (u v : Fin k → ℝ) (hu : J *ᵥ u = 0) (hv : J *ᵥ v = 0) (hu0 : u ≠ 0) (huv : ∀ c : ℝ, v ≠ c • u)
    (p : Fin n → ℝ) (value : Option ℝ) (eps : Fin n → ℝ) (m : ℝ) (hm : 0 < m) :
    ∃ (f : KG 1 n) (w : Fin n → ℝ), f.P.PosSemidef ∧ UnitNull cols J w ∧
      (Est.new f p value (fun _ => .fin m) eps).requireTuned nullspace cols J = none ∧
      m < variance (Est.new f p value (fun _ => .fin m) eps).cov w := by
  classical
  have hs := hn r k J
  set N := nullspace r k J with hN
  obtain ⟨free, hf1, hf2, hf3⟩ := hs
  -- there are two vectors
  have hlen : 2 ≤ N.length := by
    by_contra hlt
    have hcases : N.length = 0 ∨ N.length = 1 := by omega
    rcases hcases with h | h
    · refine hu0 ((hf3 u hu).trans (Finset.sum_eq_zero fun a _ => ?_))
      exact absurd a.2 (by omega)
    · have hall : ∀ a : Fin N.length, a = ⟨0, by omega⟩ := fun a => Fin.ext (by have := a.2; simp only; omega)
      have hsum : ∀ x : Fin k → ℝ, J *ᵥ x = 0 → x = x (free ⟨0, by omega⟩) • N.get ⟨0, by omega⟩ := fun x hx => by
        conv_lhs => rw [hf3 x hx]
        rw [Finset.sum_eq_single (⟨0, by omega⟩ : Fin N.length) (fun b _ hb => absurd (hall b) hb)
          (fun h => absurd (Finset.mem_univ _) h)]
      have h1 := hsum u hu
      have h2 := hsum v hv
      have hne : u (free ⟨0, by omega⟩) ≠ 0 := fun h => hu0 (by rw [h1, h, zero_smul])
      refine huv (v (free ⟨0, by omega⟩) / u (free ⟨0, by omega⟩)) ?_
      rw [h2]
      conv_rhs => rw [h1]
      rw [smul_smul]
      congr 1
      have e1 : N.get ⟨0, by omega⟩ (free ⟨0, by omega⟩) = 1 := by rw [hf2, if_pos rfl]
      simp only [Pi.smul_apply, smul_eq_mul, e1, mul_one]
      rw [div_mul_cancel₀ _ hne]
  let a0 : Fin N.length := ⟨0, by omega⟩
  let a1 : Fin N.length := ⟨1, by omega⟩
  have hne01 : a0 ≠ a1 := fun h => absurd (congrArg Fin.val h) (by simp [a0, a1])
  -- the sum of the first two vectors
  let x : Fin k → ℝ := N.get a0 + N.get a1
  have hx0 : x (free a0) = 1 := by
    simp only [x, Pi.add_apply, hf2, if_pos, if_neg hne01.symm, add_zero]
  have hx1 : x (free a1) = 1 := by
    simp only [x, Pi.add_apply, hf2, if_pos, if_neg hne01, zero_add]
  have hxJ : J *ᵥ x = 0 := by rw [mulVec_add, hf1, hf1, add_zero]
  have hxpos : 0 < ∑ b, x b ^ 2 := by
    have hle := Finset.single_le_sum (f := fun b => x b ^ 2) (fun b _ => sq_nonneg _) (Finset.mem_univ (free a0))
    rw [hx0] at hle
    linarith
  let w : Fin n → ℝ := fill cols fun b => x b / Real.sqrt (∑ b, x b ^ 2)
  have hsq : 0 < Real.sqrt (∑ b, x b ^ 2) := Real.sqrt_pos.2 hxpos
  have hw : UnitNull cols J w := by
    refine ⟨?_, fun i hi => fill_zero _ i hi, ?_⟩
    · rw [sum_cols hc _ (fun i hi => by simp only [w]; rw [fill_zero _ i hi]; ring)]
      simp only [w, fill_col hc, div_pow, Real.sq_sqrt hxpos.le]
      rw [← Finset.sum_div, div_self hxpos.ne']
    · simp only [w, fill_col hc]
      have : (fun b => x b / Real.sqrt (∑ b, x b ^ 2)) = (Real.sqrt (∑ b, x b ^ 2))⁻¹ • x := by
        funext b
        simp [div_eq_inv_mul]
      rw [this, mulVec_smul, hxJ, smul_zero]
  -- none of the directions that are looked at is parallel to it
  have hdir : ∀ d ∈ directions nullspace cols J, (∑ i, w i * d i) ^ 2 < 1 := by
    intro d hd
    have hdu := directions_unitNull hn hc hd
    unfold directions at hd
    rw [List.map_map, List.mem_map] at hd
    obtain ⟨vec, hvec, rfl⟩ := hd
    obtain ⟨a, rfl⟩ := List.mem_iff_get.1 hvec
    set d := (fill cols ∘ fun vec a => vec a / Real.sqrt (∑ b, vec b ^ 2)) (List.get (nullspace r k J) a) with hdd
    have hd_at : ∀ b, a ≠ b → d (cols (free b)) = 0 := fun b hab => by
      simp only [hdd, Function.comp_apply, fill_col hc]
      have := hf2 a b
      rw [if_neg hab] at this
      change N.get a (free b) / _ = 0
      rw [this, zero_div]
    have hw_at : ∀ b, x (free b) = 1 → w (cols (free b)) ≠ 0 := fun b hb => by
      simp only [w, fill_col hc, hb]
      exact (one_div_pos.2 hsq).ne'
    by_contra hge
    push Not at hge
    have hex : ∃ s : ℝ, s ^ 2 = 1 ∧ 1 ≤ s * ∑ i, w i * d i := by
      rcases le_or_gt 0 (∑ i, w i * d i) with h | h
      · exact ⟨1, by norm_num, by nlinarith⟩
      · exact ⟨-1, by norm_num, by nlinarith⟩
    obtain ⟨s, hs1, hs2⟩ := hex
    have hzero : ∑ i, (w i - s * d i) ^ 2 ≤ 0 := by
      have : ∑ i, (w i - s * d i) ^ 2 = ∑ i, w i ^ 2 - 2 * (s * ∑ i, w i * d i) + s ^ 2 * ∑ i, d i ^ 2 := by
        rw [Finset.mul_sum, Finset.mul_sum, Finset.mul_sum, ← Finset.sum_sub_distrib, ← Finset.sum_add_distrib]
        exact Finset.sum_congr rfl fun i _ => by ring
      rw [this, hw.unit, hdu.unit, hs1]
      linarith
    have heq : ∀ i, w i = s * d i := fun i => by
      have h1 := (Finset.sum_eq_zero_iff_of_nonneg (fun i _ => sq_nonneg (w i - s * d i))).1
        (le_antisymm hzero (Finset.sum_nonneg fun i _ => sq_nonneg _)) i (Finset.mem_univ i)
      have h2 := pow_eq_zero_iff (by norm_num) |>.1 h1
      linarith
    by_cases h0 : a = a0
    · refine hw_at a1 hx1 ?_
      rw [heq, hd_at a1 (by rw [h0]; exact hne01), mul_zero]
    · refine hw_at a0 hx0 ?_
      rw [heq, hd_at a0 h0, mul_zero]
  obtain ⟨q, hq0, hq1, hq⟩ := exists_bound ((directions nullspace cols J).map fun d => (∑ i, w i * d i) ^ 2)
    (fun y hy => by
      obtain ⟨d, hd, rfl⟩ := List.mem_map.1 hy
      exact hdir d hd)
  let P : Matrix (Fin (1 * n)) (Fin (1 * n)) ℝ := fun i j =>
    m / q * (w (i.cast (one_mul n)) * w (j.cast (one_mul n)))
  let f : KG 1 n := KG.new none none (some P) none none 1
  have hcov : ∀ z, variance (Est.new f p value (fun _ => .fin m) eps).cov z = m / q * (∑ i, w i * z i) ^ 2 := fun z => by
    change ∑ i, ∑ j, z i * (m / q * (w i * w j)) * z j = _
    rw [sq, Finset.sum_mul_sum, Finset.mul_sum]
    refine Finset.sum_congr rfl fun i _ => ?_
    rw [Finset.mul_sum]
    exact Finset.sum_congr rfl fun j _ => by ring
  have hPsd : f.P.PosSemidef := by
    refine PosSemidef.of_dotProduct_mulVec_nonneg ?_ ?_
    · ext i j
      rw [conjTranspose_apply]
      change star (m / q * (w (j.cast (one_mul n)) * w (i.cast (one_mul n)))) =
        m / q * (w (i.cast (one_mul n)) * w (j.cast (one_mul n)))
      rw [star_trivial, mul_comm (w _)]
    · intro z
      have h1 : star z ⬝ᵥ f.P *ᵥ z = m / q * (∑ i, w (i.cast (one_mul n)) * z i) ^ 2 := by
        simp only [star_trivial, dotProduct, mulVec]
        change ∑ i, z i * ∑ j, (m / q * (w (i.cast (one_mul n)) * w (j.cast (one_mul n)))) * z j = _
        rw [sq, Finset.sum_mul_sum, Finset.mul_sum]
        refine Finset.sum_congr rfl fun i _ => ?_
        rw [Finset.mul_sum, Finset.mul_sum]
        exact Finset.sum_congr rfl fun j _ => by ring
      rw [h1]
      positivity
  refine ⟨f, w, hPsd, hw, ?_, ?_⟩
  · rcases h : (Est.new f p value (fun _ => .fin m) eps).requireTuned nullspace cols J with _ | z
    · rfl
    · exfalso
      have h0 : n ≠ 0 := by
        rintro rfl
        have := hw.unit
        simp at this
      rw [requireTuned_eq _ _ _ _ _ _ _ _ h0] at h
      dsimp only at h
      rw [if_neg] at h
      · cases h
      · rintro ⟨d, hd, hlt⟩
        rw [hcov] at hlt
        have hle := hq _ (List.mem_map.2 ⟨d, hd, rfl⟩)
        have : m / q * (∑ i, w i * d i) ^ 2 ≤ m / q * q := mul_le_mul_of_nonneg_left hle (by positivity)
        rw [div_mul_cancel₀ _ hq0.ne'] at this
        linarith
  · rw [hcov]
    have h1 : ∑ i, w i * w i = 1 := by
      rw [← hw.unit]
      exact Finset.sum_congr rfl fun i _ => (sq (w i)).symm
    rw [h1, one_pow, mul_one, lt_div_iff₀ hq0]
    nlinarith

/-- Two independent directions exist for every parameter that does not depend on two of three gates. -/
example : ∃ u v : Fin 3 → ℝ, !![1, 0, 0] *ᵥ u = (0 : Fin 1 → ℝ) ∧ !![1, 0, 0] *ᵥ v = (0 : Fin 1 → ℝ) ∧
    u ≠ 0 ∧ ∀ c : ℝ, v ≠ c • u := by
  refine ⟨![0, 1, 0], ![0, 0, 1], ?_, ?_, ?_, ?_⟩
  · ext i; fin_cases i; simp
  · ext i; fin_cases i; simp
  · intro h; have := congrFun h 1; simp at this
  · intro c h; have := congrFun h 2; simp at this

end Qtune.Kalman
