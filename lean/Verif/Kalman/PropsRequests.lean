import Verif.Kalman.RequestSpec
import Verif.Kalman.PropsConvergence
import Verif.Kalman.EstimatorHistory
import Verif.Kalman.EstimatorTuned

/-! # The requests of a Kalman estimator come to an end -/

namespace Qtune.Kalman

open Matrix

variable {n : Nat}

/-- A vector on the gates as a vector of the filter. -/
def wide (v : Fin n → ℝ) : Fin (1 * n) → ℝ := fun j => v (j.cast (one_mul n))

theorem wide_sum (f : Fin n → ℝ) : ∑ j, wide f j = ∑ i, f i :=
  (finCongr (one_mul n)).sum_comp f

theorem matrixH_one (d : Fin n → ℝ) (k : Fin 1) : matrixH 1 d k = wide d := by
  funext j
  obtain rfl : k = 0 := Subsingleton.elim _ _
  have h : j.1 < n := by have := j.2; omega
  unfold matrixH wide
  rw [dif_pos (by simp [h])]
  congr 1
  exact Fin.ext (by simp)

/-- The sum of the variances of all gates. -/
def total (f : KG 1 n) : ℝ := ∑ j, f.P j j

theorem total_nonneg {f : KG 1 n} (h : f.P.PosSemidef) : 0 ≤ total f :=
  Finset.sum_nonneg fun _ _ => h.diag_nonneg

/-- A measurement along `d` reduces the sum of the variances. -/
theorem total_update {f : KG 1 n} (hs : Static f) (hP : f.P.PosSemidef) (d : Fin n → ℝ) (z : Fin 1 → ℝ) {r : ℝ}
    (hr : 0 < r) :
    ∃ f', f.update d z (some (r • 1)) none true = (f', .ok ()) ∧ Static f' ∧ f'.P.PosSemidef ∧
      total f' = total f - (∑ j, (f.P *ᵥ wide d) j ^ 2) / (wide d ⬝ᵥ (f.P *ᵥ wide d) + r) := by
  have hR : ((some (r • (1 : Matrix (Fin 1) (Fin 1) ℝ))).getD f.R).PosDef := scalar_posDef hr
  have hu := (update_static hs ⟨d, z, some (r • 1), none, true⟩ rfl).trans (correct_ok hP hR _ _)
  refine ⟨_, hu, ⟨hs.F, hs.Q, hs.alpha⟩, ?_, ?_⟩
  · have := (feed_ok f hP (by rw [hs.Q]; exact PosSemidef.zero) d z hr).2.1
    rwa [hu] at this
  · set H := matrixH 1 d with hH
    set S := f.innovation (r • 1) H with hS
    have hH0 : ∀ j, H 0 j = wide d j := fun j => congrFun (matrixH_one d 0) j
    have hPH : ∀ j, (f.P * Hᵀ) j 0 = (f.P *ᵥ wide d) j := fun j => by
      simp [mul_apply, mulVec, dotProduct, hH0]
    have hHP : ∀ j, (H * f.P) 0 j = (f.P *ᵥ wide d) j := fun j => by
      rw [← hPH]
      conv_lhs => rw [← symm_of_posSemidef hP]
      rw [← transpose_transpose H, ← transpose_mul, transpose_apply, transpose_transpose]
    have hS0 : S 0 0 = wide d ⬝ᵥ (f.P *ᵥ wide d) + r := by
      simp only [hS, Filter.innovation, Matrix.add_apply, Matrix.smul_apply, one_apply_eq, smul_eq_mul, mul_one]
      rw [mul_apply]
      simp only [hPH, hH0, dotProduct]
    have hSinv : S⁻¹ 0 0 = (wide d ⬝ᵥ (f.P *ᵥ wide d) + r)⁻¹ := by
      have h1 : S⁻¹ * S = 1 :=
        nonsing_inv_mul S ((isUnit_iff_isUnit_det _).1 (innovation_posDef hP hR H).isUnit)
      have h2 := congrFun (congrFun h1 0) 0
      rw [mul_apply, Fin.sum_univ_one, one_apply_eq, hS0] at h2
      exact eq_inv_of_mul_eq_one_left h2
    show ∑ j, (f.P - f.P * Hᵀ * S⁻¹ * H * f.P) j j = _
    simp only [Matrix.sub_apply, Finset.sum_sub_distrib]
    congr 1
    have hterm : ∀ j, (f.P * Hᵀ * S⁻¹ * H * f.P) j j =
        (f.P *ᵥ wide d) j ^ 2 / (wide d ⬝ᵥ (f.P *ᵥ wide d) + r) := fun j => by
      rw [Matrix.mul_assoc, mul_apply, Fin.sum_univ_one, mul_apply, Fin.sum_univ_one, hPH, hHP, hSinv]
      rw [div_eq_mul_inv]
      ring
    rw [Finset.sum_congr rfl fun j _ => hterm j, ← Finset.sum_div]

/-- The reduction for a step of length `|ε|` in a direction with variance above `m`. -/
theorem reduction {P : Matrix (Fin (1 * n)) (Fin (1 * n)) ℝ} (v : Fin n → ℝ) (hv : ∑ i, v i ^ 2 = 1) {m r r' ε : ℝ}
    (hm : 0 < m) (hε : ε ≠ 0) (hr : 0 < r) (hrr : r ≤ r') (hlt : m < wide v ⬝ᵥ (P *ᵥ wide v)) :
    ε ^ 2 * m ^ 2 / (ε ^ 2 * m + r') ≤
      (∑ j, (P *ᵥ wide (fun i => ε * v i)) j ^ 2) /
        (wide (fun i => ε * v i) ⬝ᵥ (P *ᵥ wide (fun i => ε * v i)) + r) := by
  have hw : wide (fun i => ε * v i) = ε • wide v := rfl
  rw [hw, mulVec_smul, smul_dotProduct, dotProduct_smul]
  set w := wide v ⬝ᵥ (P *ᵥ wide v) with hwdef
  have hcs : w ^ 2 ≤ ∑ j, (P *ᵥ wide v) j ^ 2 := by
    have h := Finset.sum_mul_sq_le_sq_mul_sq Finset.univ (wide v) (P *ᵥ wide v)
    have h1 : ∑ j, wide v j ^ 2 = 1 := by
      rw [← hv]; exact wide_sum fun i => v i ^ 2
    rw [h1, one_mul (∑ j, (P *ᵥ wide v) j ^ 2)] at h
    exact h
  have hsum : ∑ j, (ε • P *ᵥ wide v) j ^ 2 = ε ^ 2 * ∑ j, (P *ᵥ wide v) j ^ 2 := by
    rw [Finset.mul_sum]
    exact Finset.sum_congr rfl fun j _ => by simp [mul_pow]
  rw [hsum]
  have hε2 : 0 < ε ^ 2 := by positivity
  simp only [smul_eq_mul]
  have hD : 0 < ε * (ε * w) + r := by nlinarith
  have hD' : 0 < ε ^ 2 * m + r' := by nlinarith
  calc ε ^ 2 * m ^ 2 / (ε ^ 2 * m + r') ≤ ε ^ 2 * w ^ 2 / (ε * (ε * w) + r) := by
        rw [div_le_div_iff₀ hD' hD]
        have h1 : m ^ 2 * w ≤ w ^ 2 * m := by nlinarith [mul_pos hm (hm.trans hlt)]
        have h2 : m ^ 2 * r ≤ w ^ 2 * r' := by
          have : m ^ 2 ≤ w ^ 2 := by nlinarith
          exact mul_le_mul this hrr hr.le (by positivity)
        nlinarith [mul_le_mul_of_nonneg_left h1 (mul_pos hε2 hε2).le, mul_le_mul_of_nonneg_left h2 hε2.le]
    _ ≤ _ := by
        apply div_le_div_of_nonneg_right _ hD.le
        exact mul_le_mul_of_nonneg_left hcs hε2.le

/-- An estimator without dynamics with common limit and step size. -/
structure Steady (m ε : ℝ) (e : Est n) : Prop where
  static : Static e.filter
  psd : e.filter.P.PosSemidef
  limit : e.maxCov = fun _ => .fin m
  eps : e.eps = fun _ => ε
  position : ∃ p : Fin n → ℝ, e.pos = fun i => some (p i)

theorem Steady.new {m ε : ℝ} {e : Est n} (h : Steady m ε e) :
    ∃ p, e = Est.new e.filter p e.value (fun _ => .fin m) (fun _ => ε) ∧ e.pos = fun i => some (p i) := by
  obtain ⟨p, hp⟩ := h.position
  refine ⟨p, ?_, hp⟩
  have hl := h.limit
  have he := h.eps
  obtain ⟨f, pos, value, mc, eps⟩ := e
  simp only at hl he hp
  subst hl he hp
  rfl

/-- An update anywhere does not increase the sum of the variances. -/
theorem Steady.update {m ε : ℝ} {e : Est n} (h : Steady m ε e) (q : Fin n → ℝ) (value : ℝ) {r : ℝ} (hr : 0 < r)
    (isNew : Bool) :
    ∃ e', e.update (fun i => some (q i)) value r isNew = (e', .ok ()) ∧ Steady m ε e' ∧ e'.value ≠ none ∧
      total e'.filter ≤ total e.filter ∧
      ∀ p : Fin n → ℝ, e.pos = (fun i => some (p i)) → e.value ≠ none → 1 / 10000000 ≤ Real.sqrt (∑ i, (q i - p i) ^ 2) →
        total e'.filter = total e.filter - (∑ j, (e.filter.P *ᵥ wide (fun i => q i - p i)) j ^ 2) /
          (wide (fun i => q i - p i) ⬝ᵥ (e.filter.P *ᵥ wide (fun i => q i - p i)) + r) := by
  obtain ⟨p, hp⟩ := h.position
  unfold Est.update
  cases hval : e.value with
  | none =>
    refine ⟨_, rfl, ⟨h.static, h.psd, h.limit, h.eps, q, rfl⟩, by simp, le_refl _, ?_⟩
    intro p _ hv
    exact absurd rfl hv
  | some v₀ =>
    simp only [hp]
    have hdiff : ∀ i, Val.sub (some (q i)) (some (p i)) = some (q i - p i) := fun i => rfl
    simp only [hdiff, Option.getD_some]
    have hex : ¬ ∃ i : Fin n, (some (q i - p i) : Val) = none := by rintro ⟨i, hi⟩; cases hi
    rw [if_neg hex]
    split
    · rename_i hshort
      refine ⟨_, rfl, ?_, ?_, ?_, ?_⟩
      · split
        · exact ⟨h.static, h.psd, h.limit, h.eps, q, rfl⟩
        · exact h
      · split
        · simp
        · rw [hval]; simp
      · split <;> exact le_refl _
      · intro p' hp' _ hle
        have : p' = p := by
          funext i
          have := congrFun hp' i
          simpa using this.symm
        subst this
        exact absurd hle (not_le.2 hshort)
    · obtain ⟨f', hf', hs', hpsd', htot⟩ := total_update h.static h.psd (fun i => q i - p i)
        (fun _ => value - v₀) hr
      rw [hf']
      have hpos : 0 ≤ (∑ j, (e.filter.P *ᵥ wide (fun i => q i - p i)) j ^ 2) /
          (wide (fun i => q i - p i) ⬝ᵥ (e.filter.P *ᵥ wide (fun i => q i - p i)) + r) := by
        have := h.psd.dotProduct_mulVec_nonneg (wide fun i => q i - p i)
        simp only [star_trivial] at this
        exact div_nonneg (Finset.sum_nonneg fun _ _ => sq_nonneg _) (by linarith)
      refine ⟨_, rfl, ?_, ?_, ?_, ?_⟩
      · split
        · exact ⟨hs', hpsd', h.limit, h.eps, q, rfl⟩
        · exact ⟨hs', hpsd', h.limit, h.eps, p, rfl⟩
      · split
        · simp
        · simp [hval]
      · split <;> (simp only [htot]; linarith)
      · intro p' hp' _ _
        have : p' = p := by
          funext i
          have := congrFun hp' i
          simpa using this.symm
        subst this
        split <;> exact htot

/-- A requested measurement reduces the sum of the variances. -/
theorem Steady.requested {m ε : ℝ} (hm : 0 < m) (hε : 1 / 10000000 ≤ |ε|) {e : Est n} (h : Steady m ε e)
    {p v : Fin n → ℝ} (hp : e.pos = fun i => some (p i)) (hv : ∑ i, v i ^ 2 = 1) (hlt : m < variance e.cov v)
    (value : ℝ) {r r' : ℝ} (hr : 0 < r) (hrr : r ≤ r') (isNew : Bool) :
    ∃ e', e.update (displaced p fun i => ε * v i) value r isNew = (e', .ok ()) ∧ Steady m ε e' ∧
      e'.value ≠ none ∧ total e'.filter ≤ total e.filter ∧
      (e.value ≠ none → total e'.filter ≤ total e.filter - ε ^ 2 * m ^ 2 / (ε ^ 2 * m + r')) := by
  obtain ⟨e', he', hS, hval, hle, hred⟩ := h.update (fun i => p i + ε * v i) value hr isNew
  refine ⟨e', he', hS, hval, hle, fun hne => ?_⟩
  have hd : (fun i => p i + ε * v i - p i) = fun i => ε * v i := by funext i; ring
  have hlen : Real.sqrt (∑ i, (p i + ε * v i - p i) ^ 2) = |ε| := by
    have : ∑ i, (p i + ε * v i - p i) ^ 2 = ε ^ 2 := by
      rw [← mul_one (ε ^ 2), ← hv, Finset.mul_sum]
      exact Finset.sum_congr rfl fun i _ => by ring
    rw [this, Real.sqrt_sq_eq_abs]
  have := hred p hp hne (by rw [hlen]; exact hε)
  rw [hd] at this
  rw [this]
  have hε0 : ε ≠ 0 := by
    rintro rfl
    norm_num at hε
  have hvar : variance e.cov v = wide v ⬝ᵥ (e.filter.P *ᵥ wide v) := by
    rw [cov_variance, variance_eq]
    rfl
  have := reduction (P := e.filter.P) v hv hm hε0 hr hrr (by rw [← hvar]; exact hlt)
  linarith

/-- One call of somebody who follows the requests. -/
theorem Steady.step {eigh : Eigh} (heigh : EighSpec eigh) {nullspace : Nullspace} (hn : NullspaceSpec nullspace)
    {m ε : ℝ} (hm : 0 < m) (hε : 1 / 10000000 ≤ |ε|) {e : Est n} (h : Steady m ε e) {u : Use n} (hu : u.Proper)
    {r' : ℝ} (hr : 0 < u.noise) (hrr : u.noise ≤ r') :
    ∃ b e', u.step eigh nullspace e = (b, e', .ok ()) ∧ Steady m ε e' ∧
      total e'.filter + b.toNat * (ε ^ 2 * m ^ 2 / (ε ^ 2 * m + r')) ≤ total e.filter +
        (if e.value = none ∧ e'.value ≠ none then ε ^ 2 * m ^ 2 / (ε ^ 2 * m + r') else 0) ∧
      (e.value ≠ none → e'.value ≠ none) ∧ (b = false → (∀ p x y i, u ≠ .update p x y i) → e' = e) := by
  have hδ : 0 ≤ ε ^ 2 * m ^ 2 / (ε ^ 2 * m + r') := by
    have : 0 < r' := lt_of_lt_of_le hr hrr
    positivity
  obtain ⟨p, hnew, hp⟩ := h.new
  have key : ∀ (v : Fin n → ℝ) (value : ℝ) (isNew : Bool), ∑ i, v i ^ 2 = 1 → m < variance e.cov v →
      ∃ e', e.update (displaced p fun i => ε * v i) value u.noise isNew = (e', .ok ()) ∧ Steady m ε e' ∧
      total e'.filter + (true.toNat : ℕ) * (ε ^ 2 * m ^ 2 / (ε ^ 2 * m + r')) ≤ total e.filter +
        (if e.value = none ∧ e'.value ≠ none then ε ^ 2 * m ^ 2 / (ε ^ 2 * m + r') else 0) ∧
      (e.value ≠ none → e'.value ≠ none) := by
    intro v value isNew hv hlt
    obtain ⟨e', he', hS, hval, hle, hred⟩ := h.requested hm hε hp hv hlt value hr hrr isNew
    refine ⟨e', he', hS, ?_, fun _ => hval⟩
    by_cases hnone : e.value = none
    · rw [if_pos ⟨hnone, hval⟩]
      simp only [Bool.toNat_true, Nat.cast_one, one_mul]
      linarith
    · rw [if_neg (fun h => hnone h.1)]
      have := hred hnone
      simp only [Bool.toNat_true, Nat.cast_one, one_mul]
      linarith
  have none : Use.step eigh nullspace e u = (false, e, .ok ()) → _ := fun hstep =>
    (⟨false, e, hstep, h, by simp, fun hx => hx, fun _ _ => rfl⟩ :
      ∃ b e', u.step eigh nullspace e = (b, e', .ok ()) ∧ Steady m ε e' ∧
      total e'.filter + b.toNat * (ε ^ 2 * m ^ 2 / (ε ^ 2 * m + r')) ≤ total e.filter +
        (if e.value = none ∧ e'.value ≠ none then ε ^ 2 * m ^ 2 / (ε ^ 2 * m + r') else 0) ∧
      (e.value ≠ none → e'.value ≠ none) ∧ (b = false → (∀ p x y i, u ≠ .update p x y i) → e' = e))
  cases u with
  | follow gates value variance isNew =>
    cases hreq : e.require eigh gates with
    | none => exact none (by simp [Use.step, hreq])
    | some q =>
      have := (kalman_request heigh hu e.filter h.psd p e.value (fun _ => ε) m hm).2 q (by rw [← hnew]; exact hreq)
      rw [← hnew] at this
      obtain ⟨v, hv, hlt, -, rfl⟩ := this
      obtain ⟨e', he', h1, h2, h3⟩ := key v value isNew hv.unit hlt
      exact ⟨true, e', by simp only [Use.step, hreq]; exact congrArg (Prod.mk true) he', h1, h2, h3,
        fun hb => by cases hb⟩
  | followTuned gates r J value variance isNew =>
    cases hreq : e.requireTuned nullspace gates.get J with
    | none => exact none (by simp only [Use.step, hreq])
    | some q =>
      have := tuned_request_sound hn (List.nodup_iff_injective_get.1 hu) J e.filter p e.value (fun _ => ε) m (q := q)
        (by rw [← hnew]; exact hreq)
      rw [← hnew] at this
      obtain ⟨v, hv, hlt, rfl⟩ := this
      obtain ⟨e', he', h1, h2, h3⟩ := key v value isNew hv.unit hlt
      exact ⟨true, e', by simp only [Use.step, hreq]; exact congrArg (Prod.mk true) he', h1, h2, h3,
        fun hb => by cases hb⟩
  | update q value variance isNew =>
    obtain ⟨e', he', hS, hval, hle, -⟩ := h.update q value hr isNew
    refine ⟨false, e', by simp only [Use.step]; exact congrArg (Prod.mk false) he', hS, ?_, fun _ => hval,
      fun _ hx => absurd rfl (hx q value variance isNew)⟩
    have : (0 : ℝ) ≤ if e.value = Option.none ∧ e'.value ≠ Option.none then
      ε ^ 2 * m ^ 2 / (ε ^ 2 * m + r') else 0 := by split <;> simp [hδ]
    simp only [Bool.toNat_false, Nat.cast_zero, zero_mul, add_zero]
    linarith

theorem Steady.used {eigh : Eigh} (heigh : EighSpec eigh) {nullspace : Nullspace} (hn : NullspaceSpec nullspace)
    {m ε : ℝ} (hm : 0 < m) (hε : 1 / 10000000 ≤ |ε|) {r' : ℝ} (us : List (Use n)) :
    ∀ {e : Est n}, Steady m ε e → (∀ u ∈ us, u.Proper ∧ 0 < u.noise ∧ u.noise ≤ r') →
    ∃ e', (e.used eigh nullspace us).2 = .ok e' ∧ Steady m ε e' ∧
      total e'.filter + (e.used eigh nullspace us).1 * (ε ^ 2 * m ^ 2 / (ε ^ 2 * m + r')) ≤ total e.filter +
        (if e.value = none ∧ e'.value ≠ none then ε ^ 2 * m ^ 2 / (ε ^ 2 * m + r') else 0) ∧
      (e.value ≠ none → e'.value ≠ none) := by
  induction us with
  | nil =>
    intro e h _
    refine ⟨e, rfl, h, ?_, fun h => h⟩
    simp [Est.used]
  | cons u us ih =>
    intro e h hus
    obtain ⟨hu, hr, hrr⟩ := hus u (by simp)
    obtain ⟨b, e₁, hstep, h₁, htot₁, hv₁, -⟩ := h.step heigh hn hm hε hu hr hrr
    obtain ⟨e', he', h', htot', hv'⟩ := ih h₁ fun u' hu' => hus u' (by simp [hu'])
    refine ⟨e', ?_, h', ?_, fun hx => hv' (hv₁ hx)⟩
    · simp only [Est.used, hstep]
      exact he'
    · simp only [Est.used, hstep, Nat.cast_add, add_mul]
      have h0 : (if e.value = none ∧ e₁.value ≠ none then ε ^ 2 * m ^ 2 / (ε ^ 2 * m + r') else 0) +
          (if e₁.value = none ∧ e'.value ≠ none then ε ^ 2 * m ^ 2 / (ε ^ 2 * m + r') else 0) =
          if e.value = none ∧ e'.value ≠ none then ε ^ 2 * m ^ 2 / (ε ^ 2 * m + r') else 0 := by
        by_cases h1 : e.value = none
        · by_cases h2 : e₁.value = none
          · simp [h1, h2]
          · have := hv' h2
            simp [h1, h2, this]
        · have h2 := hv₁ h1
          simp [h1, h2]
      linarith

/-- **C120**.  A Kalman estimator without dynamics, with a common limit `m` and a common step size `ε` of at
least 1e-7, requests only finitely many measurements if the requested measurements are made, whatever the
results are, whichever gates are asked for, whichever measurements are made besides: the calls do not raise,
and the number of requested measurements is at most the sum of the initial variances of the gates times
`(ε² m + r) / (ε² m²)`, where `r` is the largest variance of a measured value; one more if the estimator has
no value at first. -/
theorem requests_end {eigh : Eigh} (heigh : EighSpec eigh) {nullspace : Nullspace} (hn : NullspaceSpec nullspace)
    (f : KG 1 n) (hs : Static f) (hP : f.P.PosSemidef) (p : Fin n → ℝ) (value : Option ℝ) {m ε r : ℝ}
    (hm : 0 < m) (hε : 1 / 10000000 ≤ |ε|) (hr0 : 0 < r) (us : List (Use n))
    (hus : ∀ u ∈ us, u.Proper ∧ 0 < u.noise ∧ u.noise ≤ r) :
    let e := Est.new f p value (fun _ => .fin m) (fun _ => ε)
    (∃ e', (e.used eigh nullspace us).2 = .ok e') ∧
    ((e.used eigh nullspace us).1 : ℝ) ≤
      (∑ i, e.cov i i) * ((ε ^ 2 * m + r) / (ε ^ 2 * m ^ 2)) + if value = none then 1 else 0 := by
  intro e
  have hε0 : ε ≠ 0 := by
    rintro rfl
    norm_num at hε
  obtain ⟨e', he', h', htot, hval⟩ := Steady.used heigh hn hm hε us (e := e)
    ⟨hs, hP, rfl, rfl, p, rfl⟩ hus
  refine ⟨⟨e', he'⟩, ?_⟩
  have htr : total e.filter = ∑ i, e.cov i i := by
    unfold total Est.cov
    rw [← (finCongr (one_mul n)).sum_comp]
    rfl
  have hnn := total_nonneg h'.psd
  have hδ : 0 < ε ^ 2 * m ^ 2 / (ε ^ 2 * m + r) := by positivity
  rw [← htr]
  have hinv : (ε ^ 2 * m + r) / (ε ^ 2 * m ^ 2) = (ε ^ 2 * m ^ 2 / (ε ^ 2 * m + r))⁻¹ := by
    rw [inv_div]
  rw [hinv]
  set δ := ε ^ 2 * m ^ 2 / (ε ^ 2 * m + r) with hδdef
  have hle : (if e.value = none ∧ e'.value ≠ none then δ else 0) ≤ (if value = none then 1 else 0) * δ := by
    show (if value = none ∧ e'.value ≠ none then δ else 0) ≤ _
    by_cases h1 : value = none
    · rw [if_pos h1, one_mul]
      split
      · exact le_refl _
      · exact hδ.le
    · simp [h1]
  have : ((e.used eigh nullspace us).1 : ℝ) * δ ≤ (total e.filter * δ⁻¹ + if value = none then 1 else 0) * δ := by
    rw [add_mul, mul_assoc, inv_mul_cancel₀ hδ.ne', mul_one]
    linarith
  exact le_of_mul_le_mul_right this hδ

theorem used_follow (eigh : Eigh) (nullspace : Nullspace) (gates : List (Fin n)) (us : List (Use n)) :
    ∀ (e : Est n), (∀ u ∈ us, ∃ x y b, u = .follow gates x y b) → ∀ e', (e.used eigh nullspace us).2 = .ok e' →
      (e.used eigh nullspace us).1 = us.length ∨ e'.require eigh gates = none := by
  induction us with
  | nil => intro e _ e' _; exact .inl rfl
  | cons u us ih =>
    intro e hus e' he'
    obtain ⟨x, y, b, rfl⟩ := hus u (by simp)
    cases hreq : e.require eigh gates with
    | none =>
      have hstep : Use.step eigh nullspace e (.follow gates x y b) = (false, e, .ok ()) := by
        simp only [Use.step, hreq]
      simp only [Est.used, hstep] at he' ⊢
      rcases ih e (fun u hu => hus u (by simp [hu])) e' he' with h | h
      · rcases us with _ | ⟨u, us⟩
        · right
          have : e = e' := by simpa [Est.used] using he'
          rw [← this]; exact hreq
        · exfalso
          obtain ⟨x', y', b', rfl⟩ := hus u (by simp)
          have hstep' : Use.step eigh nullspace e (.follow gates x' y' b') = (false, e, .ok ()) := by
            simp only [Use.step, hreq]
          have hlen : ∀ (us : List (Use n)), (∀ u ∈ us, ∃ x y b, u = .follow gates x y b) →
              (e.used eigh nullspace us).1 = 0 := by
            intro us
            induction us with
            | nil => intro _; rfl
            | cons u us ih2 =>
              intro hu
              obtain ⟨x, y, b, rfl⟩ := hu u (by simp)
              have hstep'' : Use.step eigh nullspace e (.follow gates x y b) = (false, e, .ok ()) := by
                simp only [Use.step, hreq]
              simp only [Est.used, hstep'']
              simpa using ih2 fun u h => hu u (by simp [h])
          rw [hlen _ fun u hu => hus u (by simp at hu ⊢; exact .inr hu)] at h
          simp at h
      · exact .inr h
    | some q =>
      rcases hup : e.update q x y b with ⟨e₁, err | _⟩
      · have hstep : Use.step eigh nullspace e (.follow gates x y b) = (true, e₁, .error err) := by
          simp only [Use.step, hreq, hup]
        simp only [Est.used, hstep] at he'
        cases he'
      · have hstep : Use.step eigh nullspace e (.follow gates x y b) = (true, e₁, .ok ()) := by
          simp only [Use.step, hreq, hup]
        simp only [Est.used, hstep] at he' ⊢
        rcases ih e₁ (fun u hu => hus u (by simp [hu])) e' he' with h | h
        · left; simp [h]; omega
        · exact .inr h

/-- **C120**.  In particular, whoever measures again and again where the estimator asks for it, is told after
finitely many measurements that no further ones are required: then the variance is at most `m` in every
direction of the gates. -/
theorem requests_end_certain {eigh : Eigh} (heigh : EighSpec eigh) {nullspace : Nullspace}
    (hn : NullspaceSpec nullspace)
    (f : KG 1 n) (hs : Static f) (hP : f.P.PosSemidef) (p : Fin n → ℝ) (value : Option ℝ) {m ε r : ℝ}
    (hm : 0 < m) (hε : 1 / 10000000 ≤ |ε|) (hr0 : 0 < r) {gates : List (Fin n)} (hg : gates.Nodup)
    (results : List (ℝ × ℝ × Bool)) (hres : ∀ x ∈ results, 0 < x.2.1 ∧ x.2.1 ≤ r) :
    let e := Est.new f p value (fun _ => .fin m) (fun _ => ε)
    (∑ i, e.cov i i) * ((ε ^ 2 * m + r) / (ε ^ 2 * m ^ 2)) + (if value = none then 1 else 0) < results.length →
    ∃ e', (e.used eigh nullspace (results.map fun x => .follow gates x.1 x.2.1 x.2.2)).2 = .ok e' ∧
      e'.require eigh gates = none ∧ ∀ v, UnitOn gates v → variance e'.cov v ≤ m := by
  intro e hlen
  set us : List (Use n) := results.map fun x => .follow gates x.1 x.2.1 x.2.2 with hus
  have hprop : ∀ u ∈ us, u.Proper ∧ 0 < u.noise ∧ u.noise ≤ r := by
    intro u hu
    obtain ⟨x, hx, rfl⟩ := List.mem_map.1 hu
    exact ⟨hg, hres x hx⟩
  obtain ⟨⟨e', he'⟩, hle⟩ := requests_end heigh hn f hs hP p value hm hε hr0 us hprop
  have hnone : e'.require eigh gates = none := by
    rcases used_follow eigh nullspace gates us e (fun u hu => by
      obtain ⟨x, hx, rfl⟩ := List.mem_map.1 hu
      exact ⟨_, _, _, rfl⟩) e' he' with h | h
    · exfalso
      rw [h] at hle
      simp only [hus, List.length_map] at hle
      linarith
    · exact h
  refine ⟨e', he', hnone, ?_⟩
  obtain ⟨e'', he'', h'', -⟩ := Steady.used heigh hn hm hε us (e := e) ⟨hs, hP, rfl, rfl, p, rfl⟩ hprop
  rw [he'] at he''
  cases he''
  obtain ⟨p', hnew, -⟩ := h''.new
  have := (kalman_request heigh hg e'.filter h''.psd p' e'.value (fun _ => ε) m hm).1.1 (by rw [← hnew]; exact hnone)
  rw [← hnew] at this
  exact this

/-- An estimator for two gates that knows nothing, and a variance of 1 for all measurements: at most
`200 * (1 + 1) + 1` requests. -/
example : ∃ (f : KG 1 2), Static f ∧ f.P.PosSemidef ∧
    (∑ i, (Est.new f 0 none (fun _ => .fin 1) (fun _ => 1)).cov i i) * ((1 ^ 2 * 1 + 1) / (1 ^ 2 * 1 ^ 2)) + 1 = (401 : ℝ) ∧
    ∃ v, UnitOn [0, 1] v ∧ (1 : ℝ) < variance (Est.new f 0 none (fun _ => .fin 1) 1).cov v := by
  refine ⟨KG.new none none (some ((100 : ℝ) • 1)) none none 1, ⟨rfl, rfl, rfl⟩, PosSemidef.one.smul (by norm_num),
    ?_, Pi.single 0 1, ⟨by simp [Fin.sum_univ_two], ?_⟩, ?_⟩
  · simp [Est.cov, Est.new, KG.new, Fin.sum_univ_two]
    norm_num
  · intro i hi
    fin_cases i <;> simp at hi
  · simp [variance, Fin.sum_univ_two, Est.cov, Est.new, KG.new, one_apply]

end Qtune.Kalman
