import Verif.Kalman.EstimatorProps

/-! # Gates with infinite maximum covariance (C87) -/

namespace Qtune.Kalman

open Matrix

variable {n : Nat}

/-- The length of the `j`-th eigenvector after it is divided by the limits. -/
noncomputable def Est.length (eigh : Eigh) (gates : List (Fin n)) (e : Est n) (j : Fin gates.length) : ℝ :=
  Real.sqrt (∑ a, ((e.maxCov (gates.get a)).under
    ((eigh _ fun a b => e.cov (gates.get a) (gates.get b)).1 j *
      (eigh _ fun a b => e.cov (gates.get a) (gates.get b)).2 a j)) ^ 2)

theorem require_none {eigh : Eigh} {gates : List (Fin n)} {e : Est n} :
    e.require eigh gates = none ↔ ∀ j, e.length eigh gates j ≤ 1 := by
  classical
  unfold Est.require
  dsimp only
  constructor
  · intro h j
    by_contra hj
    push Not at hj
    rw [if_pos ⟨j, hj⟩] at h
    split at h
    · rename_i harg
      rw [List.argmax_eq_none] at harg
      exact absurd (List.mem_finRange j) (by rw [harg]; simp)
    · cases h
  · intro h
    rw [if_neg]
    rintro ⟨j, hj⟩
    exact absurd hj (not_lt.2 (h j))

theorem require_some {eigh : Eigh} {gates : List (Fin n)} {e : Est n} {q : Fin n → Val}
    (h : e.require eigh gates = some q) : ∃ j, 1 < e.length eigh gates j ∧
      q = addFill e.pos fun i => (position gates i).map fun a =>
        e.eps i * (eigh _ fun a b => e.cov (gates.get a) (gates.get b)).2 a j := by
  classical
  unfold Est.require at h
  dsimp only at h
  split at h
  · rename_i hex
    split at h
    · cases h
    · rename_i j harg
      cases h
      obtain ⟨i, hi⟩ := hex
      have h1 := List.le_of_mem_argmax (List.mem_finRange i) harg
      exact ⟨j, lt_of_lt_of_le hi h1, rfl⟩
  · cases h

/-- The entries of the gates that satisfy `s`. -/
noncomputable def part (s : Fin n → Bool) (x : Fin n → ℝ) : Fin n → ℝ := fun i => if s i then x i else 0

theorem unit_of_part {gates : List (Fin n)} {s : Fin n → Bool} {x : Fin n → ℝ}
    (hx : ∀ i, i ∉ gates → x i = 0) (h : 0 < ∑ i, part s x i ^ 2) :
    UnitOn (gates.filter s) fun i => part s x i / Real.sqrt (∑ i, part s x i ^ 2) := by
  refine ⟨?_, fun i hi => ?_⟩
  · simp only [div_pow, Real.sq_sqrt h.le]
    rw [← Finset.sum_div, div_self h.ne']
  · rw [List.mem_filter, not_and] at hi
    unfold part
    by_cases hg : i ∈ gates
    · rw [if_neg (hi hg), zero_div]
    · rw [hx i hg, ite_self, zero_div]

theorem variance_scale (C : Matrix (Fin n) (Fin n) ℝ) (x : Fin n → ℝ) (c : ℝ) :
    variance C (fun i => x i / c) = variance C x / c ^ 2 := by
  unfold variance
  rw [Finset.sum_div]
  refine Finset.sum_congr rfl fun i _ => ?_
  rw [Finset.sum_div]
  exact Finset.sum_congr rfl fun j _ => by ring

/-- The part of an eigenvector on gates that are not correlated with the others. -/
theorem variance_part {C : Matrix (Fin n) (Fin n) ℝ} {gates : List (Fin n)} {s : Fin n → Bool}
    {x : Fin n → ℝ} {w : ℝ} (hx : ∀ i, i ∉ gates → x i = 0)
    (hC : ∀ i j, s i = true → s j = false → C i j = 0)
    (hw : ∀ i ∈ gates, ∑ k, C i k * x k = w * x i) :
    variance C (part s x) = w * ∑ i, part s x i ^ 2 := by
  unfold variance
  rw [Finset.mul_sum]
  refine Finset.sum_congr rfl fun i _ => ?_
  by_cases hs : s i = true
  · have h1 : ∀ k, C i k * part s x k = C i k * x k := fun k => by
      unfold part
      by_cases hk : s k = true
      · rw [if_pos hk]
      · rw [hC i k hs (by simpa using hk), zero_mul, zero_mul]
    by_cases hi : i ∈ gates
    · have h2 := hw i hi
      calc ∑ j, part s x i * C i j * part s x j = part s x i * ∑ j, C i j * x j := by
            rw [Finset.mul_sum]
            exact Finset.sum_congr rfl fun j _ => by rw [mul_assoc, h1]
        _ = w * part s x i ^ 2 := by
            rw [h2, show x i = part s x i from (if_pos hs).symm]
            ring
    · have : part s x i = 0 := by unfold part; rw [hx i hi, ite_self]
      simp [this]
  · have : part s x i = 0 := if_neg hs
    simp [this]

/-- **C87**, partial: gates with an infinite limit that are not correlated with the others.  They
never cause a measurement, however uncertain they are.  If no direction of them is as uncertain as a
direction of the other gates that exceeds the limit, a measurement is requested exactly if the
variance exceeds the limit in a direction of the other gates, and then none of them is moved.  Missing,
because it is false (`infinite_limit_refuted`): gates that are correlated with the others. -/
theorem infinite_limit_partial {eigh : Eigh} (heigh : EighSpec eigh) {gates : List (Fin n)}
    (hgates : gates.Nodup) (f : KG 1 n) (hP : f.P.PosSemidef) (p : Fin n → ℝ) (value : Option ℝ)
    (eps : Fin n → ℝ) (m : ℝ) (hm : 0 < m) (ignored : Fin n → Bool) :
    let e := Est.new f p value (fun i => if ignored i then .inf else .fin m) eps
    (∀ i j, ignored i = false → ignored j = true → e.cov i j = 0) →
    ((∀ v, UnitOn (gates.filter fun i => !ignored i) v → variance e.cov v ≤ m) →
      e.require eigh gates = none) ∧
    ((∀ u v, UnitOn (gates.filter fun i => !ignored i) u → UnitOn (gates.filter ignored) v →
        m < variance e.cov u → variance e.cov u ≠ variance e.cov v) →
      (e.require eigh gates = none ↔
        ∀ v, UnitOn (gates.filter fun i => !ignored i) v → variance e.cov v ≤ m) ∧
      ∀ q, e.require eigh gates = some q → ∃ v, UnitOn (gates.filter fun i => !ignored i) v ∧
        m < variance e.cov v ∧ q = displaced p (fun i => eps i * v i)) := by
  intro e hcor
  have hPe : e.filter.P.PosSemidef := hP
  let A : Matrix (Fin gates.length) (Fin gates.length) ℝ := fun a b => e.cov (gates.get a) (gates.get b)
  have hAsymm : Aᵀ = A := by
    ext a b
    exact cov_symm hPe _ _
  obtain ⟨hV, hAV⟩ := heigh _ A hAsymm
  set w := (eigh _ A).1 with hw
  set V := (eigh _ A).2 with hVdef
  -- the columns as directions on the gates
  let x : Fin gates.length → Fin n → ℝ := fun j => spread gates fun a => V a j
  have hx0 : ∀ j i, i ∉ gates → x j i = 0 := fun j i hi => spread_zero _ i hi
  have hxu : ∀ j, ∑ i, x j i ^ 2 = 1 := fun j => by
    rw [sum_gates hgates _ (fun i hi => by rw [hx0 j i hi]; ring)]
    simp only [x, spread_get hgates]
    simpa [sq] using hV j j
  have hxw : ∀ j, ∀ i ∈ gates, ∑ k, e.cov i k * x j k = w j * x j i := fun j i hi => by
    obtain ⟨a, rfl⟩ := List.get_of_mem hi
    rw [sum_gates hgates _ (fun k hk => by rw [hx0 j k hk, mul_zero])]
    simp only [x, spread_get hgates]
    exact hAV a j
  have hvar : ∀ j, variance e.cov (x j) = w j := fun j => by
    rw [variance_gates hgates _ _ (hx0 j)]
    simp only [x, spread_get hgates]
    exact variance_eigenvector hV hAV j
  have hwnn : ∀ j, 0 ≤ w j := fun j => hvar j ▸ cov_nonneg hPe _
  -- the two parts
  let F : Fin n → Bool := fun i => !ignored i
  have hF := fun j => variance_part (s := F) (hx0 j)
    (fun i k hi hk => hcor i k (by simpa [F] using hi) (by simpa [F] using hk)) (hxw j)
  have hI := fun j => variance_part (s := ignored) (hx0 j)
    (fun i k hi hk => by rw [cov_symm hPe]; exact hcor k i hk hi) (hxw j)
  have hsum : ∀ j, ∑ i, part F (x j) i ^ 2 + ∑ i, part ignored (x j) i ^ 2 = 1 := fun j => by
    rw [← Finset.sum_add_distrib, ← hxu j]
    refine Finset.sum_congr rfl fun i _ => ?_
    unfold part
    cases hi : ignored i <;> simp [F, hi]
  have hFnn : ∀ j, 0 ≤ ∑ i, part F (x j) i ^ 2 := fun j => Finset.sum_nonneg fun i _ => sq_nonneg _
  have hInn : ∀ j, 0 ≤ ∑ i, part ignored (x j) i ^ 2 := fun j => Finset.sum_nonneg fun i _ => sq_nonneg _
  have hlen : ∀ j, e.length eigh gates j = Real.sqrt ((w j / m) ^ 2 * ∑ i, part F (x j) i ^ 2) := fun j => by
    unfold Est.length
    congr 1
    rw [sum_gates hgates (fun i => part F (x j) i ^ 2)
      (fun i hi => by unfold part; rw [hx0 j i hi, ite_self]; ring), Finset.mul_sum]
    refine Finset.sum_congr rfl fun a _ => ?_
    have hxa : x j (gates.get a) = V a j := spread_get hgates _ a
    unfold part
    rw [hxa]
    have he : e.maxCov (gates.get a) = if ignored (gates.get a) then .inf else .fin m := rfl
    rw [he]
    change _ = (w j / m) ^ 2 * (if (!ignored (gates.get a)) = true then V a j else 0) ^ 2
    cases hi : ignored (gates.get a)
    · simp only [Bool.false_eq_true, if_false, Limit.under, Bool.not_false, if_true]
      change (w j * V a j / m) ^ 2 = _
      ring
    · simp [Limit.under]
  -- the unit directions
  have huF : ∀ j, 0 < ∑ i, part F (x j) i ^ 2 → ∃ u, UnitOn (gates.filter F) u ∧ variance e.cov u = w j :=
    fun j h => ⟨_, unit_of_part (hx0 j) h, by
      rw [variance_scale, hF j, Real.sq_sqrt h.le, mul_div_cancel_right₀ _ h.ne']⟩
  have huI : ∀ j, 0 < ∑ i, part ignored (x j) i ^ 2 →
      ∃ u, UnitOn (gates.filter ignored) u ∧ variance e.cov u = w j :=
    fun j h => ⟨_, unit_of_part (hx0 j) h, by
      rw [variance_scale, hI j, Real.sq_sqrt h.le, mul_div_cancel_right₀ _ h.ne']⟩
  have hlong : ∀ j, 1 < e.length eigh gates j → 0 < ∑ i, part F (x j) i ^ 2 ∧ m < w j := fun j h => by
    rw [hlen, Real.lt_sqrt (by norm_num)] at h
    have hpos : 0 < ∑ i, part F (x j) i ^ 2 := by
      rcases (hFnn j).lt_or_eq with h1 | h1
      · exact h1
      · rw [← h1] at h
        norm_num at h
    refine ⟨hpos, ?_⟩
    by_contra hle
    push Not at hle
    have h1 : w j / m ≤ 1 := (div_le_one hm).2 hle
    have h0 : 0 ≤ w j / m := div_nonneg (hwnn j) hm.le
    have h2 : (w j / m) ^ 2 ≤ 1 := pow_le_one₀ h0 h1
    have h3 : ∑ i, part F (x j) i ^ 2 ≤ 1 := by linarith [hsum j, hInn j]
    have h4 := mul_le_one₀ h2 (hFnn j) h3
    linarith
  refine ⟨fun hsmall => require_none.2 fun j => ?_, fun hdiff => ?_⟩
  · by_contra hj
    obtain ⟨h1, h2⟩ := hlong j (not_le.1 hj)
    obtain ⟨u, hu, hv⟩ := huF j h1
    exact absurd (hsmall u hu) (by rw [hv]; exact not_le.2 h2)
  -- a direction that exceeds the limit is on the other gates only
  have hpure : ∀ j, 0 < ∑ i, part F (x j) i ^ 2 → m < w j → ∑ i, part ignored (x j) i ^ 2 = 0 := fun j h1 h2 => by
    by_contra hne
    obtain ⟨u, hu, hv⟩ := huF j h1
    obtain ⟨u', hu', hv'⟩ := huI j (lt_of_le_of_ne (hInn j) (Ne.symm hne))
    exact hdiff u u' hu hu' (by rw [hv]; exact h2) (by rw [hv, hv'])
  refine ⟨⟨fun hnone u hu => ?_, fun hsmall => require_none.2 fun j => ?_⟩, fun q hq => ?_⟩
  · have hug : ∀ i, i ∉ gates → u i = 0 := fun i hi => hu.support i fun h => hi (List.mem_filter.1 h).1
    rw [variance_gates hgates _ _ hug, (spectral hV hAV _).2]
    have h1 : ∑ j, (∑ a, V a j * u (gates.get a)) ^ 2 = 1 := by
      rw [(spectral hV hAV _).1, ← sum_gates hgates (fun i => u i ^ 2) (fun i hi => by rw [hug i hi]; ring)]
      exact hu.unit
    calc ∑ j, w j * (∑ a, V a j * u (gates.get a)) ^ 2
        ≤ ∑ j, m * (∑ a, V a j * u (gates.get a)) ^ 2 := by
          refine Finset.sum_le_sum fun j _ => ?_
          by_cases hc : ∑ a, V a j * u (gates.get a) = 0
          · rw [hc]; norm_num
          · refine mul_le_mul_of_nonneg_right ?_ (sq_nonneg _)
            by_contra hlt
            push Not at hlt
            have hpos : 0 < ∑ i, part F (x j) i ^ 2 := by
              rcases (hFnn j).lt_or_eq with h2 | h2
              · exact h2
              · exfalso
                apply hc
                have hz : ∀ i, part F (x j) i = 0 := fun i => by
                  have := (Finset.sum_eq_zero_iff_of_nonneg (fun i _ => sq_nonneg _)).1 h2.symm i (Finset.mem_univ i)
                  exact pow_eq_zero_iff (by norm_num) |>.1 this
                refine Finset.sum_eq_zero fun a _ => ?_
                have hxa : x j (gates.get a) = V a j := spread_get hgates _ a
                have := hz (gates.get a)
                unfold part at this
                by_cases hFa : F (gates.get a) = true
                · rw [if_pos hFa, hxa] at this
                  rw [this, zero_mul]
                · rw [hu.support (gates.get a) (fun h => hFa (List.mem_filter.1 h).2), mul_zero]
            have h3 := hpure j hpos hlt
            have h4 : ∑ i, part F (x j) i ^ 2 = 1 := by linarith [hsum j]
            have h5 := require_none.1 hnone j
            rw [hlen, h4, mul_one, Real.sqrt_sq (div_nonneg (hwnn j) hm.le), div_le_one hm] at h5
            linarith
      _ = m := by rw [← Finset.mul_sum, h1, mul_one]
  · by_contra hj
    obtain ⟨h1, h2⟩ := hlong j (not_le.1 hj)
    obtain ⟨u, hu, hv⟩ := huF j h1
    exact absurd (hsmall u hu) (by rw [hv]; exact not_le.2 h2)
  · obtain ⟨j, hj, rfl⟩ := require_some hq
    obtain ⟨h1, h2⟩ := hlong j hj
    have h3 := hpure j h1 h2
    have hz : ∀ i, ignored i = true → x j i = 0 := fun i hi => by
      have := (Finset.sum_eq_zero_iff_of_nonneg (fun i _ => sq_nonneg _)).1 h3 i (Finset.mem_univ i)
      have := pow_eq_zero_iff (by norm_num) |>.1 this
      unfold part at this
      rwa [if_pos hi] at this
    refine ⟨x j, ⟨hxu j, fun i hi => ?_⟩, by rw [hvar]; exact h2, ?_⟩
    · by_cases hg : i ∈ gates
      · refine hz i ?_
        by_contra hne
        exact hi (List.mem_filter.2 ⟨hg, by simpa using hne⟩)
      · exact hx0 j i hg
    · funext i
      change addFill (fun i => some (p i)) (fun i => (position gates i).map fun a => eps i * V a j) i = _
      unfold displaced addFill
      simp only [x, spread]
      cases hpos : position gates i with
      | none => simp
      | some a => simp

/-- Two gates that are not correlated: the first has the limit 2 and the variance 1, the second is
ignored and has the variance 100.  Nothing is requested. -/
example {eigh : Eigh} (heigh : EighSpec eigh) :
    (Est.new (KG.new none none (some (diagonal fun j : Fin (1 * 2) => if j.1 = 0 then 1 else 100)) none none 1 : KG 1 2)
      0 (some 0) (fun i => if (fun i : Fin 2 => i == 1) i then .inf else .fin 2) 1).require eigh [0, 1] = none := by
  refine (infinite_limit_partial heigh (by decide) _ ?_ 0 (some 0) 1 2 (by norm_num) (fun i => i == 1) ?_).1 ?_
  · exact PosSemidef.diagonal fun j => by dsimp only; split <;> norm_num
  · intro i j hi hj
    refine diagonal_apply_ne _ fun h => ?_
    have : i = j := Fin.ext (congrArg Fin.val h)
    subst this
    rw [hi] at hj
    cases hj
  · intro v hv
    have h1 : v 1 = 0 := hv.support 1 (by decide)
    have h0 := hv.unit
    rw [Fin.sum_univ_two, h1] at h0
    have hc : ∀ i j, (Est.new (KG.new none none (some (diagonal fun j : Fin (1 * 2) => if j.1 = 0 then 1 else 100))
      none none 1 : KG 1 2) 0 (some 0) (fun i => if (fun i : Fin 2 => i == 1) i then Limit.inf else .fin 2) 1).cov i j =
        diagonal (fun j : Fin (1 * 2) => if j.1 = 0 then (1 : ℝ) else 100) (i.cast (one_mul 2).symm)
          (j.cast (one_mul 2).symm) := fun i j => rfl
    unfold variance
    simp only [Fin.sum_univ_two, h1, hc, mul_zero, zero_mul, add_zero]
    rw [show (diagonal (fun j : Fin (1 * 2) => if j.1 = 0 then (1 : ℝ) else 100) ((0 : Fin 2).cast (one_mul 2).symm)
          ((0 : Fin 2).cast (one_mul 2).symm)) = 1 from by simp]
    nlinarith

end Qtune.Kalman
