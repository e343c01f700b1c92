import Verif.Kalman.EstimatorProps
import Mathlib.LinearAlgebra.FiniteDimensional.Defs

/-! # Properties of the Kalman estimator: requests that respect tuned parameters -/

namespace Qtune.Kalman

open Matrix

variable {n r k : Nat}

/-- `v` has length 1, moves the gates `cols` only and leaves the parameters with Jacobian `J` unchanged
to first order. -/
structure UnitNull (cols : Fin k → Fin n) (J : Matrix (Fin r) (Fin k) ℝ) (v : Fin n → ℝ) : Prop where
  unit : ∑ i, v i ^ 2 = 1
  support : ∀ i, (∀ a, cols a ≠ i) → v i = 0
  null : J *ᵥ (fun a => v (cols a)) = 0

theorem fill_col {cols : Fin k → Fin n} (hc : Function.Injective cols) (vec : Fin k → ℝ) (a : Fin k) :
    fill cols vec (cols a) = vec a := by
  unfold fill
  have : (List.finRange k).find? (fun b => cols b = cols a) = some a := by
    rw [List.find?_eq_some_iff_getElem]
    refine ⟨by simp, a.1, by simp, by simp, ?_⟩
    intro j hj
    simp only [Bool.not_eq_true', decide_eq_false_iff_not]
    intro heq
    have := congrArg Fin.val (hc heq)
    simp at this
    omega
  rw [this]

theorem fill_zero {cols : Fin k → Fin n} (vec : Fin k → ℝ) (i : Fin n) (hi : ∀ a, cols a ≠ i) :
    fill cols vec i = 0 := by
  unfold fill
  have : (List.finRange k).find? (fun b => cols b = i) = none := by
    rw [List.find?_eq_none]
    intro a _ ha
    simp only [decide_eq_true_eq] at ha
    exact hi a ha
  rw [this]

theorem sum_cols {cols : Fin k → Fin n} (hc : Function.Injective cols) (f : Fin n → ℝ)
    (hf : ∀ i, (∀ a, cols a ≠ i) → f i = 0) : ∑ i, f i = ∑ a, f (cols a) := by
  rw [← Finset.sum_image (s := Finset.univ) (g := cols) (f := f) (fun a _ b _ h => hc h)]
  symm
  refine Finset.sum_subset (Finset.subset_univ _) ?_
  intro i _ hi
  refine hf i fun a ha => hi ?_
  rw [← ha]
  exact Finset.mem_image_of_mem _ (Finset.mem_univ a)

theorem maxLimit_const (m : ℝ) : ∀ (l : List Limit), l ≠ [] → (∀ x ∈ l, x = .fin m) →
    maxLimit l = .fin m
  | [], h, _ => absurd rfl h
  | [x], _, h => h x (by simp)
  | x :: y :: l, _, h => by
    have h1 := h x (by simp)
    subst h1
    show (match maxLimit (y :: l) with
      | .inf => Limit.inf
      | .fin m' => .fin (max m m')) = _
    rw [maxLimit_const m (y :: l) (by simp) (fun z hz => h z (by simp [hz]))]
    simp

/-- The normalised vectors of the null space, on all gates. -/
noncomputable def directions (nullspace : Nullspace) (cols : Fin k → Fin n)
    (J : Matrix (Fin r) (Fin k) ℝ) : List (Fin n → ℝ) :=
  ((nullspace r k J).map fun vec => fun a => vec a / Real.sqrt (∑ b, vec b ^ 2)).map (fill cols)

theorem ne_zero_of_mem {nullspace : Nullspace} (hn : NullspaceSpec nullspace)
    {J : Matrix (Fin r) (Fin k) ℝ} {vec : Fin k → ℝ} (h : vec ∈ nullspace r k J) :
    J *ᵥ vec = 0 ∧ 0 < ∑ b, vec b ^ 2 := by
  obtain ⟨free, h1, h2, -⟩ := hn r k J
  obtain ⟨a, rfl⟩ := List.mem_iff_get.1 h
  refine ⟨h1 a, ?_⟩
  have : (1 : ℝ) = ((nullspace r k J).get a (free a)) ^ 2 := by rw [h2 a a]; simp
  have hle := Finset.single_le_sum (f := fun b => ((nullspace r k J).get a b) ^ 2)
    (fun b _ => sq_nonneg _) (Finset.mem_univ (free a))
  linarith

theorem directions_unitNull {nullspace : Nullspace} (hn : NullspaceSpec nullspace)
    {cols : Fin k → Fin n} (hc : Function.Injective cols) {J : Matrix (Fin r) (Fin k) ℝ}
    {v : Fin n → ℝ} (hv : v ∈ directions nullspace cols J) : UnitNull cols J v := by
  unfold directions at hv
  rw [List.map_map, List.mem_map] at hv
  obtain ⟨vec, hvec, rfl⟩ := hv
  obtain ⟨hJ, hpos⟩ := ne_zero_of_mem hn hvec
  simp only [Function.comp]
  refine ⟨?_, fun i hi => fill_zero _ i hi, ?_⟩
  · rw [sum_cols hc _ (fun i hi => by rw [fill_zero _ i hi]; ring)]
    simp only [fill_col hc, div_pow, Real.sq_sqrt hpos.le]
    rw [← Finset.sum_div, div_self hpos.ne']
  · simp only [fill_col hc]
    have : (fun a => vec a / Real.sqrt (∑ b, vec b ^ 2)) = (Real.sqrt (∑ b, vec b ^ 2))⁻¹ • vec := by
      funext a
      simp [div_eq_inv_mul]
    rw [this, mulVec_smul, hJ, smul_zero]

theorem requireTuned_eq (nullspace : Nullspace) (cols : Fin k → Fin n) (J : Matrix (Fin r) (Fin k) ℝ)
    (f : KG 1 n) (p : Fin n → ℝ) (value : Option ℝ) (eps : Fin n → ℝ) (m : ℝ) (hn : n ≠ 0) :
    (Est.new f p value (fun _ => .fin m) eps).requireTuned nullspace cols J =
      let e := Est.new f p value (fun _ => .fin m) eps
      open Classical in
      if ∃ v ∈ directions nullspace cols J, m < variance e.cov v then
        match (directions nullspace cols J).argmax (variance e.cov) with
        | none => none
        | some v => some (displaced p fun i => eps i * v i)
      else none := by
  have hl : maxLimit (List.ofFn (Est.new f p value (fun _ => .fin m) eps).maxCov) = .fin m := by
    refine maxLimit_const m _ ?_ ?_
    · intro h
      have := congrArg List.length h
      simp at this
      exact hn this
    · intro x hx
      rw [List.mem_ofFn] at hx
      obtain ⟨i, rfl⟩ := hx
      rfl
  have hd : ∀ e : Est n, (fun v : Fin n → ℝ => v ⬝ᵥ (e.cov *ᵥ v)) = variance e.cov :=
    fun e => funext fun v => (variance_eq _ _).symm
  unfold Est.requireTuned
  simp only [hl, hd, Limit.exceeded]
  simp only [← variance_eq]
  rfl

/-- Every request with a tuned Jacobian is a displacement by `eps * v` along a unit direction `v` that
leaves the tuned parameters unchanged and whose variance exceeds the limit. -/
theorem tuned_request_sound {nullspace : Nullspace} (hn : NullspaceSpec nullspace)
    {cols : Fin k → Fin n} (hc : Function.Injective cols) (J : Matrix (Fin r) (Fin k) ℝ)
    (f : KG 1 n) (p : Fin n → ℝ) (value : Option ℝ) (eps : Fin n → ℝ) (m : ℝ) {q : Fin n → Val}
    (hq : (Est.new f p value (fun _ => .fin m) eps).requireTuned nullspace cols J = some q) :
    ∃ v, UnitNull cols J v ∧ m < variance (Est.new f p value (fun _ => .fin m) eps).cov v ∧
      q = displaced p fun i => eps i * v i := by
  have h0 : n ≠ 0 := by
    rintro rfl
    unfold Est.requireTuned at hq
    simp [maxLimit, Limit.exceeded] at hq
  rw [requireTuned_eq _ _ _ _ _ _ _ _ h0] at hq
  dsimp only at hq
  split at hq
  · rename_i hex
    split at hq
    · cases hq
    · rename_i v harg
      cases hq
      refine ⟨v, directions_unitNull hn hc (List.argmax_mem harg), ?_, rfl⟩
      obtain ⟨u, hu, hlt⟩ := hex
      exact lt_of_lt_of_le hlt (List.le_of_mem_argmax hu harg)
  · cases hq

/-- **C48**, the case in which it holds: if `epsilon` is the same for all gates in the Jacobian, the
requested displacement does not change the tuned parameters to first order.
Missing: different entries of `epsilon`, see `request_keeps_tuned_refuted`. -/
theorem request_keeps_tuned_partial {nullspace : Nullspace} (hn : NullspaceSpec nullspace)
    {cols : Fin k → Fin n} (hc : Function.Injective cols) (J : Matrix (Fin r) (Fin k) ℝ)
    (f : KG 1 n) (p : Fin n → ℝ) (value : Option ℝ) (eps : Fin n → ℝ) (m : ℝ)
    (c : ℝ) (heps : ∀ a, eps (cols a) = c) {q : Fin n → Val}
    (hq : (Est.new f p value (fun _ => .fin m) eps).requireTuned nullspace cols J = some q) :
    ∃ d, q = displaced p d ∧ (∀ i, (∀ a, cols a ≠ i) → d i = 0) ∧ J *ᵥ (fun a => d (cols a)) = 0 := by
  obtain ⟨v, hv, -, rfl⟩ := tuned_request_sound hn hc J f p value eps m hq
  refine ⟨_, rfl, ?_, ?_⟩
  · intro i hi
    simp only [hv.support i hi, mul_zero]
  · have : (fun a => eps (cols a) * v (cols a)) = c • fun a => v (cols a) := by
      funext a
      simp [heps a]
    rw [this, mulVec_smul, hv.null, smul_zero]

/-- The vector of a one-row Jacobian. -/
theorem null_row {a b : ℝ} {x : Fin 2 → ℝ} (h : !![a, b] *ᵥ x = 0) : a * x 0 + b * x 1 = 0 := by
  have := congrFun h 0
  simpa [mulVec, dotProduct, Fin.sum_univ_two] using this

/-- **C48** is false: with two gates, the Jacobian `[1, 1]`, an uncertain gradient and different entries of
`epsilon`, a point is requested whose displacement changes the tuned parameter. -/
theorem request_keeps_tuned_refuted {nullspace : Nullspace} (hn : NullspaceSpec nullspace) :
    ∃ (f : KG 1 2) (p eps : Fin 2 → ℝ) (J : Matrix (Fin 1) (Fin 2) ℝ) (d : Fin 2 → ℝ),
      f.P.PosDef ∧ (∀ i, 0 < eps i) ∧
      (Est.new f p (some 0) (fun _ => .fin 1) eps).requireTuned nullspace id J = some (displaced p d) ∧
      J *ᵥ d ≠ 0 := by
  let f : KG 1 2 := KG.new none none (some ((2 : ℝ) • 1)) none none 1
  let J : Matrix (Fin 1) (Fin 2) ℝ := !![1, 1]
  let eps : Fin 2 → ℝ := ![1, 2]
  let e := Est.new f 0 (some 0) (fun _ => .fin 1) eps
  have hcov : ∀ v : Fin 2 → ℝ, variance e.cov v = 2 * ∑ i, v i ^ 2 := by
    intro v
    simp [variance, Est.cov, e, Est.new, f, KG.new, Fin.sum_univ_two, one_apply]
    ring
  -- the null space is not trivial
  have hne : directions nullspace id J ≠ [] := by
    intro h
    unfold directions at h
    rw [List.map_eq_nil_iff, List.map_eq_nil_iff] at h
    obtain ⟨free, -, -, h3⟩ := hn 1 2 J
    have := h3 ![1, -1] (by ext i; simp [J, mulVec, dotProduct, Fin.sum_univ_two])
    have h0 := congrFun this 0
    rw [Finset.sum_apply, Finset.sum_eq_zero] at h0
    · simp at h0
    · intro a _
      have h1 := a.2
      have h2 : (nullspace 1 2 J).length = 0 := by rw [h]; rfl
      omega
  obtain ⟨v₀, hv₀⟩ := List.exists_mem_of_ne_nil _ hne
  cases hreq : e.requireTuned nullspace id J with
  | none =>
    exfalso
    rw [requireTuned_eq _ _ _ _ _ _ _ _ (by norm_num)] at hreq
    dsimp only at hreq
    rw [if_pos ⟨v₀, hv₀, by
      rw [hcov, (directions_unitNull hn Function.injective_id hv₀).unit]; norm_num⟩] at hreq
    split at hreq
    · rename_i harg
      rw [List.argmax_eq_none] at harg
      exact hne harg
    · cases hreq
  | some q =>
    obtain ⟨v, hv, -, rfl⟩ := tuned_request_sound hn Function.injective_id J f 0 (some 0) eps 1 hreq
    refine ⟨f, 0, eps, J, fun i => eps i * v i, PosDef.one.smul (by norm_num : (0 : ℝ) < 2), ?_, hreq, ?_⟩
    · intro i
      fin_cases i <;> simp [eps]
    · intro h
      have h1 := null_row h
      have h2 := null_row hv.null
      have h3 := hv.unit
      simp [eps, Fin.sum_univ_two] at h1 h2 h3
      have : v 1 = 0 := by linarith
      have : v 0 = 0 := by linarith
      simp_all

/-- **C84**, the case in which it holds: if the directions that do not change the tuned parameters are
multiples of one direction, nothing is requested exactly if the variance of the gradient in the unit
directions that do not change the tuned parameters is at most the limit.
Missing: two and more such directions, see `tuned_request_refuted`. -/
theorem tuned_request_partial {nullspace : Nullspace} (hn : NullspaceSpec nullspace)
    {cols : Fin k → Fin n} (hc : Function.Injective cols) (J : Matrix (Fin r) (Fin k) ℝ)
    (h1 : ∀ u v : Fin k → ℝ, J *ᵥ u = 0 → J *ᵥ v = 0 → u ≠ 0 → ∃ c : ℝ, v = c • u)
    (f : KG 1 n) (p : Fin n → ℝ) (value : Option ℝ) (eps : Fin n → ℝ) (m : ℝ) (hm : 0 < m) :
    let e := Est.new f p value (fun _ => .fin m) eps
    e.requireTuned nullspace cols J = none ↔ ∀ v, UnitNull cols J v → variance e.cov v ≤ m := by
  intro e
  constructor
  · intro h v hv
    by_contra hlt
    push Not at hlt
    have h0 : n ≠ 0 := by
      rintro rfl
      have := hv.unit
      simp at this
    rw [requireTuned_eq _ _ _ _ _ _ _ _ h0] at h
    dsimp only at h
    -- `v` is a multiple of a vector of the null space
    have hv0 : (fun a => v (cols a)) ≠ 0 := by
      intro h0
      have := hv.unit
      rw [sum_cols hc _ (fun i hi => by rw [hv.support i hi]; ring)] at this
      simp [fun a => congrFun h0 a] at this
    obtain ⟨free, hf1, hf2, hf3⟩ := hn r k J
    have hex : ∃ vec, vec ∈ nullspace r k J := by
      by_contra hno
      push Not at hno
      apply hv0
      rw [hf3 _ hv.null]
      refine Finset.sum_eq_zero fun a _ => absurd ((nullspace r k J).get_mem a) (hno _)
    obtain ⟨vec, hvec⟩ := hex
    obtain ⟨hJ, hpos⟩ := ne_zero_of_mem hn hvec
    have hdir : fill cols (fun a => vec a / Real.sqrt (∑ b, vec b ^ 2)) ∈ directions nullspace cols J := by
      unfold directions
      rw [List.map_map, List.mem_map]
      exact ⟨vec, hvec, rfl⟩
    set u := fill cols (fun a => vec a / Real.sqrt (∑ b, vec b ^ 2)) with hu
    have hun := directions_unitNull hn hc hdir
    have hu0 : (fun a => u (cols a)) ≠ 0 := by
      intro h0
      have := hun.unit
      rw [sum_cols hc _ (fun i hi => by rw [hun.support i hi]; ring)] at this
      simp [fun a => congrFun h0 a] at this
    obtain ⟨c, hcu⟩ := h1 _ _ hun.null hv.null hu0
    have hvu : v = c • u := by
      funext i
      by_cases hi : ∃ a, cols a = i
      · obtain ⟨a, rfl⟩ := hi
        exact congrFun hcu a
      · push Not at hi
        rw [hv.support i hi, Pi.smul_apply, hun.support i hi, smul_zero]
    have hc2 : c ^ 2 = 1 := by
      have := hv.unit
      rw [hvu] at this
      simp only [Pi.smul_apply, smul_eq_mul, mul_pow] at this
      rw [← Finset.mul_sum, hun.unit, mul_one] at this
      exact this
    have hvar : variance e.cov v = variance e.cov u := by
      rw [hvu, variance_eq, variance_eq, mulVec_smul, dotProduct_smul, smul_dotProduct]
      simp only [smul_eq_mul]
      rw [← mul_assoc, ← sq, hc2, one_mul]
    rw [if_pos ⟨u, hdir, hvar ▸ hlt⟩] at h
    split at h
    · rename_i harg
      rw [List.argmax_eq_none] at harg
      rw [harg] at hdir
      cases hdir
    · cases h
  · intro h
    cases hreq : e.requireTuned nullspace cols J with
    | none => rfl
    | some q =>
      exfalso
      obtain ⟨v, hv, hlt, -⟩ := tuned_request_sound hn hc J f p value eps m hreq
      exact absurd (h v hv) (not_le.2 hlt)

/-- **C84** is false: with three gates, one of which is used by the tuned parameter, no variance of a
single gate exceeds the limit, so that nothing is requested; the variance along the diagonal of the two
free gates exceeds it. -/
theorem tuned_request_refuted {nullspace : Nullspace} (hn : NullspaceSpec nullspace) :
    ∃ (f : KG 1 3) (J : Matrix (Fin 1) (Fin 3) ℝ) (m : ℝ) (v : Fin 3 → ℝ), f.P.PosSemidef ∧ 0 < m ∧
      UnitNull id J v ∧ m < variance (Est.new f 0 (some 0) (fun _ => .fin m) 1).cov v ∧
      (Est.new f 0 (some 0) (fun _ => .fin m) 1).requireTuned nullspace id J = none := by
  let P : Matrix (Fin (1 * 3)) (Fin (1 * 3)) ℝ := !![1, 1, 0; 1, 1, 0; 0, 0, 0]
  let f : KG 1 3 := KG.new none none (some P) none none 1
  let J : Matrix (Fin 1) (Fin 3) ℝ := !![0, 0, 1]
  let e := Est.new f 0 (some 0) (fun _ => .fin (3 / 2)) 1
  have hcov : ∀ v : Fin 3 → ℝ, variance e.cov v = (v 0 + v 1) ^ 2 := by
    intro v
    simp [variance, Est.cov, e, Est.new, f, KG.new, Fin.sum_univ_three, P, Fin.cast]
    ring
  have hs : Real.sqrt 2 ≠ 0 := by positivity
  have hs2 : Real.sqrt 2 ^ 2 = 2 := Real.sq_sqrt (by norm_num)
  have hP : P.PosSemidef := by
    refine PosSemidef.of_dotProduct_mulVec_nonneg ?_ ?_
    · ext i j
      fin_cases i <;> fin_cases j <;> simp [P]
    · intro x
      have : star x ⬝ᵥ P *ᵥ x = (x 0 + x 1) ^ 2 := by
        simp only [star_trivial]
        show ∑ i : Fin 3, x i * ∑ j : Fin 3, P i j * x j = _
        simp [Fin.sum_univ_three, P]
        ring
      rw [this]
      positivity
  have h2 : ∀ x : Fin 3 → ℝ, J *ᵥ x = 0 ↔ x 2 = 0 := by
    intro x
    constructor
    · intro h
      have := congrFun h 0
      simpa [mulVec, dotProduct, Fin.sum_univ_three, J] using this
    · intro h
      ext i
      simp [mulVec, dotProduct, Fin.sum_univ_three, J, h]
  refine ⟨f, J, 3 / 2, ![1 / Real.sqrt 2, 1 / Real.sqrt 2, 0], hP, by norm_num, ⟨?_, ?_, ?_⟩, ?_, ?_⟩
  · simp [Fin.sum_univ_three]
    norm_num
  · intro i hi
    exact absurd rfl (hi i)
  · exact (h2 _).2 (by simp)
  · rw [hcov]
    have : (![1 / Real.sqrt 2, 1 / Real.sqrt 2, 0] 0 + ![1 / Real.sqrt 2, 1 / Real.sqrt 2, 0] 1 : ℝ) ^ 2 =
        2 := by
      show (1 / Real.sqrt 2 + 1 / Real.sqrt 2) ^ 2 = 2
      field_simp
      rw [hs2]
      norm_num
    rw [this]
    norm_num
  · -- each vector of the null space has one of its first two entries 0
    obtain ⟨free, hf1, hf2, hf3⟩ := hn 1 3 J
    have hfree : ∀ a, free a ≠ 2 := by
      intro a ha
      have h1 := (h2 _).1 (hf1 a)
      have h3 := hf2 a a
      rw [ha, h1] at h3
      simp at h3
    -- both of the first two columns are free
    have hcol : ∀ i : Fin 3, i ≠ 2 → ∃ a, free a = i := by
      intro i hi
      by_contra hno
      push Not at hno
      have h1 := hf3 (Pi.single i 1) ((h2 _).2 (by simp [Pi.single_apply, Ne.symm hi]))
      have h3 := congrFun h1 i
      rw [Finset.sum_eq_zero] at h3
      · simp at h3
      · intro a _
        simp [Pi.single_apply, hno a]
    have hone : ∀ a, (nullspace 1 3 J).get a 0 = 0 ∨ (nullspace 1 3 J).get a 1 = 0 := by
      intro a
      obtain ⟨b, hb⟩ := hcol 0 (by decide)
      obtain ⟨c, hc⟩ := hcol 1 (by decide)
      by_cases hab : a = b
      · right
        rw [← hc, hf2, if_neg]
        rintro rfl
        rw [← hab] at hb
        rw [hb] at hc
        exact absurd hc (by decide)
      · left
        rw [← hb, hf2, if_neg hab]
    cases hreq : e.requireTuned nullspace id J with
    | none => rfl
    | some q =>
      exfalso
      rw [requireTuned_eq _ _ _ _ _ _ _ _ (by norm_num)] at hreq
      dsimp only at hreq
      rw [if_neg] at hreq
      · cases hreq
      · rintro ⟨v, hv, hlt⟩
        rw [hcov] at hlt
        have hu := (directions_unitNull hn Function.injective_id hv).unit
        unfold directions at hv
        rw [List.map_map, List.mem_map] at hv
        obtain ⟨vec, hvec, rfl⟩ := hv
        obtain ⟨a, rfl⟩ := List.mem_iff_get.1 hvec
        set x : Fin 3 → ℝ := (fill id ∘ fun vec a => vec a / Real.sqrt (∑ b, vec b ^ 2))
          ((nullspace 1 3 J).get a) with hx
        have hx' : ∀ i : Fin 3, x i = (nullspace 1 3 J).get a i /
            Real.sqrt (∑ b, (nullspace 1 3 J).get a b ^ 2) :=
          fun i => fill_col Function.injective_id _ i
        rw [Fin.sum_univ_three] at hu
        rcases hone a with h0 | h0
        · have : x 0 = 0 := by rw [hx', h0, zero_div]
          rw [this] at hlt hu
          nlinarith [sq_nonneg (x 2)]
        · have : x 1 = 0 := by rw [hx', h0, zero_div]
          rw [this] at hlt hu
          nlinarith [sq_nonneg (x 2)]

/-- There is a function with the assumed properties of sympy's null space. -/
theorem exists_nullspace : ∃ nullspace : Nullspace, NullspaceSpec nullspace := by
  classical
  have key : ∀ (r k : Nat) (J : Matrix (Fin r) (Fin k) ℝ), ∃ (s : Nat) (b : Fin s → Fin k → ℝ)
      (free : Fin s → Fin k), (∀ a, J *ᵥ b a = 0) ∧ (∀ a c, b a (free c) = if a = c then 1 else 0) ∧
      ∀ v, J *ᵥ v = 0 → v = ∑ a, v (free a) • b a := by
    intro r k J
    let K : Submodule ℝ (Fin k → ℝ) := LinearMap.ker J.mulVecLin
    let φ : Fin k → Module.Dual ℝ K := fun i => (LinearMap.proj i).comp K.subtype
    obtain ⟨κ, a, ha, hspan, hli⟩ := exists_linearIndependent' ℝ φ
    haveI : Finite κ := Finite.of_injective a ha
    letI : Fintype κ := Fintype.ofFinite κ
    let L : K →ₗ[ℝ] (κ → ℝ) := LinearMap.pi fun c => φ (a c)
    have hinj : Function.Injective L := by
      rw [← LinearMap.ker_eq_bot, LinearMap.ker_eq_bot']
      intro x hx
      have hzero : ∀ ψ ∈ Submodule.span ℝ (Set.range φ), ψ x = 0 := by
        intro ψ hψ
        rw [← hspan] at hψ
        induction hψ using Submodule.span_induction with
        | mem y hy =>
          obtain ⟨c, rfl⟩ := hy
          exact congrFun hx c
        | zero => rfl
        | add y z _ _ hy hz => simp [hy, hz]
        | smul c y _ hy => simp [hy]
      ext i
      exact hzero (φ i) (Submodule.subset_span ⟨i, rfl⟩)
    have hdim : Module.finrank ℝ K = Module.finrank ℝ (κ → ℝ) := by
      refine le_antisymm (LinearMap.finrank_le_finrank_of_injective hinj) ?_
      rw [Module.finrank_fintype_fun_eq_card, ← Subspace.dual_finrank_eq]
      exact hli.fintype_card_le_finrank
    let E := LinearEquiv.ofInjectiveOfFinrankEq L hinj hdim
    have hE : ∀ x : K, E x = fun c => x.1 (a c) := fun x => rfl
    let en := Fintype.equivFin κ
    refine ⟨Fintype.card κ, fun c => (E.symm (Pi.single (en.symm c) 1)).1, fun c => a (en.symm c), ?_, ?_, ?_⟩
    · intro c
      have := (E.symm (Pi.single (en.symm c) 1)).2
      exact LinearMap.mem_ker.1 this
    · intro c d
      have := congrFun (hE (E.symm (Pi.single (en.symm c) 1))) (en.symm d)
      rw [E.apply_symm_apply] at this
      dsimp only
      rw [← this, Pi.single_apply]
      simp [eq_comm]
    · intro v hv
      have hvK : v ∈ K := LinearMap.mem_ker.2 hv
      have h1 : (⟨v, hvK⟩ : K) = ∑ c, v (a (en.symm c)) • E.symm (Pi.single (en.symm c) 1) := by
        apply E.injective
        rw [map_sum]
        simp only [map_smul, E.apply_symm_apply]
        rw [hE]
        funext d
        rw [Finset.sum_apply, ← en.sum_comp]
        simp [Pi.single_apply]
      have h2 := congrArg Subtype.val h1
      simpa using h2
  choose s b free h1 h2 h3 using key
  refine ⟨fun r k J => List.ofFn (b r k J), fun r k J =>
    ⟨fun a => free r k J (a.cast (by simp)), ?_, ?_, ?_⟩⟩
  · intro a
    rw [List.get_ofFn]
    exact h1 r k J _
  · intro a c
    rw [List.get_ofFn, h2]
    simp [Fin.ext_iff]
  · intro v hv
    have := h3 r k J v hv
    conv_lhs => rw [this]
    let c : Fin (List.ofFn (b r k J)).length ≃ Fin (s r k J) := finCongr (by simp)
    rw [← c.sum_comp]
    refine Finset.sum_congr rfl fun a _ => ?_
    rw [List.get_ofFn]
    rfl

/-- A case that meets the hypotheses: of two gates the tuned parameter depends on the first only, the directions that do not
change it are the multiples of one direction. -/
example {nullspace : Nullspace} (hn : NullspaceSpec nullspace) (f : KG 1 2) (p eps : Fin 2 → ℝ) :
    (Est.new f p none (fun _ => .fin 1) eps).requireTuned nullspace id !![1, 0] = none ↔
      ∀ v, UnitNull id (!![1, 0] : Matrix (Fin 1) (Fin 2) ℝ) v → variance (Est.new f p none (fun _ => .fin 1) eps).cov v ≤ 1 := by
  refine tuned_request_partial hn Function.injective_id !![1, 0] ?_ f p none eps 1 one_pos
  intro u v hu hv hne
  have hu0 : u 0 = 0 := by simpa [mulVec, dotProduct, Fin.sum_univ_two] using congrFun hu 0
  have hv0 : v 0 = 0 := by simpa [mulVec, dotProduct, Fin.sum_univ_two] using congrFun hv 0
  have hu1 : u 1 ≠ 0 := by
    intro h
    apply hne
    ext i
    fin_cases i
    · exact hu0
    · exact h
  refine ⟨v 1 / u 1, ?_⟩
  ext i
  fin_cases i
  · simp [hu0, hv0]
  · simp [hu1]

end Qtune.Kalman
