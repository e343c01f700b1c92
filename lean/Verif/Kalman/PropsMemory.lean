import Verif.Kalman.PropsFading

/-! # What an estimator with and without fading memory asks for -/

namespace Qtune.Kalman

open Matrix

variable {m n : Nat}

/-- The filter of an earlier version of the history. -/
theorem run_calls {cs : List (Call m n)} : ∀ {f f' : KG m n}, run cs f = .ok f' → calls cs f = f' := by
  induction cs with
  | nil => intro f f' h; exact Except.ok.inj h
  | cons c cs ih =>
    intro f f' h
    unfold run at h
    unfold calls
    split at h
    · cases h
    · rename_i f₁ hf₁
      rw [hf₁]
      exact ih h

/-- **C122** (c).  A filter without fading memory does not follow the device in a number of measurements that is
independent of the history: for every number `N` of measurements there is a history after which the estimate of a
gradient that has changed from 0 to 1 is still at most `δ` after `N` exact measurements. -/
theorem never_forgets_refuted (N : ℕ) {δ : ℝ} (hδ : 0 < δ) :
    ∃ (T : ℕ) (f₁ f₂ : KG 1 1),
      run (List.replicate T ⟨fun _ => 1, fun _ => 0, none, none, true⟩) (KG.new none none none none none 1) = .ok f₁ ∧
      run (List.replicate N ⟨fun _ => 1, fun _ => 1, none, none, true⟩) f₁ = .ok f₂ ∧
      f₁.grad 0 0 = 0 ∧ f₂.grad 0 0 ≤ δ := by
  obtain ⟨T, hT⟩ := exists_nat_gt (N / δ)
  let f : KG 1 1 := KG.new none none none none none 1
  have hs : Static f := ⟨rfl, rfl, rfl⟩
  have hP : f.P.PosSemidef := PosSemidef.one
  have hinfo : ∀ (z : ℝ) (K : ℕ) (R : Matrix (Fin 1) (Fin 1) ℝ), R = 1 →
      information R (List.replicate K (⟨fun _ => 1, fun _ => z, none, none, true⟩ : Call 1 1)) = (K : ℝ) • 1 := by
    rintro z K R rfl
    unfold information
    rw [List.map_replicate, List.sum_replicate]
    ext i j
    have hi : i = 0 := Fin.ext (by omega)
    have hj : j = 0 := Fin.ext (by omega)
    subst hi hj
    simp [matrixH, Matrix.mul_apply]
  have hexact : ∀ (z : ℝ) (K : ℕ), ∀ c ∈ List.replicate K (⟨fun _ => 1, fun _ => z, none, none, true⟩ : Call 1 1),
      ExactCall (fun _ _ => z) (1 : Matrix (Fin 1) (Fin 1) ℝ) c := by
    intro z K c hc
    rw [List.eq_of_mem_replicate hc]
    exact ⟨fun k => by simp, PosDef.one, rfl⟩
  have hzero : f.x - flat (fun _ _ => (0 : ℝ) : Matrix (Fin 1) (Fin 1) ℝ) = f.P *ᵥ 0 := by
    rw [mulVec_zero]
    funext j
    simp [f, KG.new, flat]
  obtain ⟨f₁, hrun₁, hP₁, hR₁, herr₁, hinf₁⟩ := run_invariant _ f hs hP (hexact 0 T)
  have hx₁ := herr₁ 0 hzero
  have hA₁ := hinf₁ 1 (one_mul _)
  rw [hinfo 0 T f.R rfl] at hA₁
  have hs₁ : Static f₁ := by
    obtain ⟨f', hf', h', -⟩ := fading_run one_ne_zero
      (List.replicate T ⟨fun _ => 1, fun _ => 0, none, none, true⟩) f ⟨rfl, rfl, rfl⟩ hP
      (fun c hc => by rw [List.eq_of_mem_replicate hc]; exact ⟨PosDef.one, rfl, rfl⟩)
    rw [hrun₁] at hf'
    cases hf'
    exact ⟨h'.F, h'.Q, h'.alpha⟩
  obtain ⟨f₂, hrun₂, hP₂, hR₂, herr₂, hinf₂⟩ := run_invariant _ f₁ hs₁ hP₁ (by rw [hR₁]; exact hexact 1 N)
  have hA₂ := hinf₂ _ hA₁
  rw [hR₁, hinfo 1 N f.R rfl] at hA₂
  have hx10 : f₁.x 0 = 0 := by
    have := congrFun hx₁ 0
    simpa [flat] using this
  have hp1 : (1 + T) * f₁.P 0 0 = 1 := by
    have := congrFun (congrFun hA₁ 0) 0
    simpa [Matrix.mul_apply] using this
  have hp2 : (1 + T + N) * f₂.P 0 0 = 1 := by
    have := congrFun (congrFun hA₂ 0) 0
    simpa [Matrix.mul_apply] using this
  have hx2 := herr₂ (fun _ => -(1 + T)) (by
    funext j
    have hj : j = 0 := Fin.ext (by omega)
    subst hj
    simp [flat, hx10, mulVec, dotProduct]
    linarith)
  have hx20 : f₂.x 0 - 1 = f₂.P 0 0 * -(1 + T) := by
    have := congrFun hx2 0
    simpa [flat, mulVec, dotProduct] using this
  refine ⟨T, f₁, f₂, hrun₁, hrun₂, hx10, ?_⟩
  show f₂.x 0 ≤ δ
  have hT' : (N : ℝ) < T * δ := (div_lt_iff₀ hδ).1 hT
  have hT0 : (0 : ℝ) ≤ T := Nat.cast_nonneg _
  have hN0 : (0 : ℝ) ≤ N := Nat.cast_nonneg _
  have hpos : (0 : ℝ) < 1 + T + N := by linarith
  have hp : f₂.P 0 0 = (1 + T + N : ℝ)⁻¹ := eq_inv_of_mul_eq_one_right hp2
  have : f₂.x 0 = N / (1 + T + N) := by
    rw [hp] at hx20
    field_simp at hx20 ⊢
    linarith
  rw [this, div_le_iff₀ hpos]
  nlinarith

/-- The calls of `update` that an estimator makes. -/
theorem fed_plain (R₀ : Matrix (Fin 1) (Fin 1) ℝ) (start : Option ((Fin n → ℝ) × ℝ)) (history : List (Event n))
    (hcov : ∀ q v c b, Event.update q v c b ∈ history → 0 < c) : ∀ c ∈ fed start history, Plain R₀ c := by
  induction history with
  | nil => intro c hc; cases hc
  | cons ev past ih =>
    have ih := ih fun q v c b h => hcov q v c b (List.mem_cons_of_mem _ h)
    cases ev with
    | restart q => exact ih
    | update q v r b =>
      intro c hc
      unfold fed at hc
      split at hc
      · exact ih c hc
      · split at hc
        · rw [List.mem_append, List.mem_singleton] at hc
          rcases hc with hc | rfl
          · exact ih c hc
          · exact ⟨scalar_posDef (hcov q v r b (by simp)), rfl, rfl⟩
        · exact ih c hc

/-- Limits and step sizes stay, and the position stays free of NaN. -/
theorem after_new (f : KG 1 n) (hP : f.P.PosSemidef) (hQ : f.Q.PosSemidef) (p : Fin n → ℝ)
    (value : Option ℝ) (maxCov : Fin n → Limit) (eps : Fin n → ℝ) (history : List (Event n))
    (hcov : ∀ q v c b, Event.update q v c b ∈ history → 0 < c) :
    ∃ q v, (Est.new f p value maxCov eps).after history =
      .ok (Est.new (calls (fed (value.map (p, ·)) history) f) q v maxCov eps) := by
  obtain ⟨e', h, hf, -, -⟩ := kalman_reference f hP hQ p value maxCov eps history hcov
  suffices hk : ∀ (history : List (Event n)) e', (Est.new f p value maxCov eps).after history = .ok e' →
      ∃ q : Fin n → ℝ, e'.pos = (fun i => some (q i)) ∧ e'.maxCov = maxCov ∧ e'.eps = eps by
    obtain ⟨q, h1, h2, h3⟩ := hk history e' h
    refine ⟨q, e'.value, ?_⟩
    rw [h, ← hf]
    obtain ⟨a, b, c, d, e⟩ := e'
    simp only at h1 h2 h3
    subst h1 h2 h3
    rfl
  clear h hf e'
  intro history
  induction history with
  | nil =>
    intro e' h
    cases h
    exact ⟨p, rfl, rfl, rfl⟩
  | cons ev past ih =>
    intro e' h
    cases ev with
    | restart q =>
      unfold Est.after at h
      split at h
      · cases h
      · rename_i e₁ he₁
        cases h
        exact ih e₁ he₁
    | update q v r b =>
      unfold Est.after at h
      split at h
      · cases h
      · rename_i e₁ he₁
        obtain ⟨q₁, h1, h2, h3⟩ := ih e₁ he₁
        unfold Est.update at h
        split at h
        · cases h
        · rename_i e₂ he₂
          cases h
          cases hv : e₁.value with
          | none =>
            rw [hv] at he₂
            dsimp only at he₂
            cases he₂
            exact ⟨q, rfl, h2, h3⟩
          | some v₀ =>
            rw [hv] at he₂
            dsimp only at he₂
            split at he₂
            · cases he₂
              split
              · exact ⟨q, rfl, h2, h3⟩
              · exact ⟨q₁, h1, h2, h3⟩
            · split at he₂
              · cases he₂
              · split at he₂
                · cases he₂
                · cases he₂
                  split
                  · exact ⟨q, rfl, h2, h3⟩
                  · exact ⟨q₁, h1, h2, h3⟩

theorem static_fading {f : KG m n} (h : Static f) : Fading 1 f := ⟨h.F, h.Q, h.alpha⟩

/-- Without fading memory no variance grows. -/
theorem static_decreases (cs : List (Call m n)) : ∀ (f : KG m n), Static f → f.P.PosSemidef → (∀ c ∈ cs, Plain f.R c) →
    (calls cs f).P.PosSemidef ∧ ∀ v, variance (calls cs f).P v ≤ variance f.P v := by
  induction cs with
  | nil => intro f _ hP _; exact ⟨hP, fun v => le_refl _⟩
  | cons c cs ih =>
    intro f hs hP hcs
    have hc := hcs c (by simp)
    obtain ⟨f₁, hu, h₁, hP₁, hR₁, -⟩ := fading_step one_ne_zero (static_fading hs) hP hc
    obtain ⟨f', hf', hle, -⟩ := correction_decreases_variance f hP c.diff c.values c.R hc.noise
    have hff : f' = f₁ := by
      have h1 := (update_static hs c hc.process).symm.trans hu
      have h2 : f.correct c.values c.R (matrixH m c.diff) = (f', .ok ()) := hf'
      rw [h2] at h1
      exact (Prod.mk.inj h1).1
    rw [hff] at hle
    unfold calls
    rw [hu]
    obtain ⟨hpsd, hmono⟩ := ih f₁ ⟨h₁.F, h₁.Q, h₁.alpha⟩ hP₁ fun c' hc' => by
      rw [hR₁]; exact hcs c' (by simp [hc'])
    exact ⟨hpsd, fun v => (hmono v).trans (hle v)⟩

/-- **C123** (a).  A Kalman estimator without fading memory that has no request for some gates never has one again,
whatever is measured. -/
theorem silent_forever {eigh : Eigh} (heigh : EighSpec eigh) {gates : List (Fin n)} (hgates : gates.Nodup)
    (f : KG 1 n) (hs : Static f) (hP : f.P.PosSemidef) (p : Fin n → ℝ) (value : Option ℝ) {limit : ℝ}
    (hl : 0 < limit) (eps : Fin n → ℝ) (history : List (Event n))
    (hcov : ∀ q v c b, Event.update q v c b ∈ history → 0 < c)
    (hsilent : (Est.new f p value (fun _ => .fin limit) eps).require eigh gates = none) :
    ∃ e', (Est.new f p value (fun _ => .fin limit) eps).after history = .ok e' ∧ e'.require eigh gates = none := by
  obtain ⟨q, v, h⟩ := after_new f hP (by rw [hs.Q]; exact PosSemidef.zero) p value (fun _ => .fin limit) eps history hcov
  refine ⟨_, h, ?_⟩
  obtain ⟨hP', hmono⟩ := static_decreases _ f hs hP (fed_plain f.R (value.map (p, ·)) history hcov)
  refine (kalman_request heigh hgates _ hP' q v eps limit hl).1.2 fun u hu => ?_
  have := (kalman_request heigh hgates f hP p value eps limit hl).1.1 hsilent u hu
  rw [cov_variance] at this ⊢
  exact (hmono _).trans this

/-- The variance of a direction that is not probed. -/
theorem unprobed {a : ℝ} (ha : a ≠ 0) (f : KG m n) (hs : Fading a f) (hP : f.P.PosDef) (cs : List (Call m n))
    (hcs : ∀ c ∈ cs, Plain f.R c) (v : Fin (m * n) → ℝ) (hv : ∀ c ∈ cs, matrixH m c.diff *ᵥ v = 0) (hv0 : v ≠ 0) :
    ∃ f', run cs f = .ok f' ∧ f'.P.PosSemidef ∧
      (a ^ 2) ^ cs.length * sqLen v ^ 2 / variance f.P⁻¹ v ≤ variance f'.P v := by
  obtain ⟨f', hrun, -, hP', -, hinf, -⟩ := fading_run ha cs f hs hP.posSemidef hcs
  refine ⟨f', hrun, hP', ?_⟩
  have hdet : IsUnit f.P.det := (isUnit_iff_isUnit_det _).1 hP.isUnit
  set A := ((a ^ 2) ^ cs.length)⁻¹ • f.P⁻¹ + fadingInfo a f.R cs with hAdef
  have hA : A * f'.P = 1 := hinf f.P⁻¹ (nonsing_inv_mul _ hdet)
  have hA' : f'.P * A = 1 := mul_eq_one_comm.1 hA
  have hquad : v ⬝ᵥ (A *ᵥ v) = ((a ^ 2) ^ cs.length)⁻¹ * variance f.P⁻¹ v := by
    rw [hAdef, add_mulVec, dotProduct_add, fadingInfo_quad, smul_mulVec, dotProduct_smul, smul_eq_mul, ← variance_eq]
    have : probed a f.R v cs = 0 := by
      clear hrun hinf hAdef hA hA' A hcs
      induction cs with
      | nil => rfl
      | cons c cs ih =>
        rw [probed, hv c (by simp), ih fun c' hc' => hv c' (by simp [hc'])]
        simp [variance_eq]
    rw [this, add_zero]
  have hpos : 0 < variance f.P⁻¹ v := by
    rw [variance_eq]
    have := hP.inv.dotProduct_mulVec_pos hv0
    simpa using this
  set K := (a ^ 2) ^ cs.length with hK
  have hKpos : 0 < K := by positivity
  set s := sqLen v * K / variance f.P⁻¹ v with hsdef
  have h0 := hP'.dotProduct_mulVec_nonneg (v - s • (A *ᵥ v))
  have hAv : f'.P *ᵥ (A *ᵥ v) = v := by rw [mulVec_mulVec, hA', one_mulVec]
  have hsym : (A *ᵥ v) ⬝ᵥ (f'.P *ᵥ v) = v ⬝ᵥ v := by
    rw [dotProduct_mulVec, ← mulVec_transpose, symm_of_posSemidef hP', hAv]
  have hcomm : (A *ᵥ v) ⬝ᵥ v = v ⬝ᵥ (A *ᵥ v) := dotProduct_comm _ _
  simp only [star_trivial, mulVec_sub, mulVec_smul, dotProduct_sub, sub_dotProduct, dotProduct_smul, smul_dotProduct,
    smul_eq_mul, hAv, hsym, hcomm, hquad, ← sqLen_eq, ← variance_eq] at h0
  have h1 : s * (K⁻¹ * variance f.P⁻¹ v) = sqLen v := by
    rw [hsdef]; field_simp
  rw [h1] at h0
  have h2 : s * sqLen v = K * sqLen v ^ 2 / variance f.P⁻¹ v := by rw [hsdef]; ring
  linarith

theorem matrixH_orthogonal (d v : Fin n → ℝ) (h : ∑ i, d i * v i = 0) : matrixH 1 d *ᵥ wide v = 0 := by
  funext k
  show matrixH 1 d k ⬝ᵥ wide v = 0
  rw [matrixH_one, ← h, ← wide_sum]
  rfl

/-- **C123** (b).  A Kalman estimator with fading memory `a > 1` asks again: if the measurements that have entered
the filter were all orthogonal to a unit direction `v` of some gates, and there were so many of them that `a^(2N)`
exceeds the limit times `vᵀ P₀⁻¹ v`, then the estimator requests a measurement for these gates. -/
theorem asks_again {eigh : Eigh} (heigh : EighSpec eigh) {gates : List (Fin n)} (hgates : gates.Nodup) {a : ℝ}
    (ha : a ≠ 0) (f : KG 1 n) (hs : Fading a f) (hP : f.P.PosDef) (p : Fin n → ℝ) (value : Option ℝ) {limit : ℝ}
    (hl : 0 < limit) (eps : Fin n → ℝ) (history : List (Event n))
    (hcov : ∀ q v c b, Event.update q v c b ∈ history → 0 < c) (v : Fin n → ℝ) (hv : UnitOn gates v)
    (horth : ∀ c ∈ fed (value.map (p, ·)) history, ∑ i, c.diff i * v i = 0)
    (hmany : limit * variance (Est.new f p value (fun _ => .fin limit) eps).cov⁻¹ v <
      (a ^ 2) ^ (fed (value.map (p, ·)) history).length) :
    ∃ e' q, (Est.new f p value (fun _ => .fin limit) eps).after history = .ok e' ∧ e'.require eigh gates = some q := by
  obtain ⟨q, w, h⟩ := after_new f hP.posSemidef (by rw [hs.Q]; exact PosSemidef.zero) p value (fun _ => .fin limit) eps
    history hcov
  have hv0 : wide v ≠ 0 := by
    intro h0
    have : ∑ i, v i ^ 2 = 0 := by
      rw [← wide_sum fun i => v i ^ 2]
      exact Finset.sum_eq_zero fun j _ => by
        have : v (j.cast (one_mul n)) = 0 := congrFun h0 j
        simp [wide, this]
    rw [hv.unit] at this
    exact one_ne_zero this
  have hlen : sqLen (wide v) = 1 := by
    rw [← hv.unit, ← wide_sum fun i => v i ^ 2]
    rfl
  obtain ⟨f', hrun, hP', hvar⟩ := unprobed ha f hs hP _ (fed_plain f.R (value.map (p, ·)) history hcov) (wide v)
    (fun c hc => matrixH_orthogonal _ _ (horth c hc)) hv0
  rw [run_calls hrun] at h
  have hinv : variance (Est.new f p value (fun _ => .fin limit) eps).cov⁻¹ v = variance f.P⁻¹ (wide v) := by
    have h1 : (Est.new f p value (fun _ => .fin limit) eps).cov =
        f.P.submatrix (finCongr (one_mul n)).symm (finCongr (one_mul n)).symm := rfl
    rw [h1, inv_submatrix_equiv]
    exact cov_variance (e := Est.new { f with P := f.P⁻¹ } p value (fun _ => .fin limit) eps) v
  rw [hinv] at hmany
  have hpos : 0 < variance f.P⁻¹ (wide v) := by
    rw [variance_eq]
    have := hP.inv.dotProduct_mulVec_pos hv0
    simpa using this
  have hbig : limit < variance f'.P (wide v) := by
    refine lt_of_lt_of_le ?_ hvar
    rw [hlen, one_pow, mul_one, lt_div_iff₀ hpos]
    exact hmany
  cases hreq : (Est.new f' q w (fun _ => .fin limit) eps).require eigh gates with
  | some q' => exact ⟨_, q', h, hreq⟩
  | none =>
    have := (kalman_request heigh hgates f' hP' q w eps limit hl).1.1 hreq v hv
    rw [cov_variance] at this
    exact absurd hbig (not_lt.2 this)

/-- Two gates; the first is measured three times, the second never.  With `a = 2` and a limit above all initial
variances the estimator is silent at first and asks for the second gate at the end. -/
example : ∃ (f : KG 1 2) (history : List (Event 2)) (v : Fin 2 → ℝ), Fading 2 f ∧ f.P.PosDef ∧ UnitOn [0, 1] v ∧
    (∀ q v c b, Event.update q v c b ∈ history → 0 < c) ∧
    (∀ c ∈ fed ((some 0).map ((fun _ => (0 : ℝ)), ·)) history, ∑ i, c.diff i * v i = 0) ∧
    5 * variance (Est.new f (fun _ => 0) (some 0) (fun _ => .fin 5) (fun _ => 1)).cov⁻¹ v <
      (2 ^ 2 : ℝ) ^ (fed ((some 0).map ((fun _ => (0 : ℝ)), ·)) history).length ∧
    ∀ u, UnitOn [0, 1] u → variance (Est.new f (fun _ => 0) (some 0) (fun _ => .fin 5) (fun _ => 1)).cov u ≤ 5 := by
  have hcov : (Est.new (KG.new none none none none none 2 : KG 1 2) (fun _ => 0) (some 0) (fun _ => .fin 5)
      (fun _ => 1)).cov = 1 := by
    ext i j
    simp [Est.cov, Est.new, KG.new, one_apply]
  have hfed : fed ((some 0).map ((fun _ => (0 : ℝ)), ·)) (List.replicate 3 (Event.update ![1, 0] 3 1 false)) =
      List.replicate 3 (⟨![1, 0], fun _ => 3, some ((1 : ℝ) • 1), none, true⟩ : Call 1 2) := by
    have h1 : (1 : ℝ) / 10000000 ≤ Real.sqrt (∑ i : Fin 2, (![1, 0] : Fin 2 → ℝ) i ^ 2) := by
      simp [Fin.sum_univ_two]
      norm_num
    simp only [List.replicate, fed, reference, Option.map_some, sub_zero, if_pos h1, List.nil_append,
      List.cons_append, Bool.false_eq_true, if_false]
  refine ⟨KG.new none none none none none 2, List.replicate 3 (.update ![1, 0] 3 1 false), ![0, 1], ⟨rfl, rfl, rfl⟩,
    PosDef.one, ⟨by simp [Fin.sum_univ_two], by decide⟩, ?_, ?_, ?_, ?_⟩
  · intro q v c b h
    have := List.eq_of_mem_replicate h
    cases this
    exact one_pos
  · rw [hfed]
    intro c hc
    rw [List.eq_of_mem_replicate hc]
    simp [Fin.sum_univ_two]
  · rw [hfed, hcov, inv_one]
    simp [variance, Fin.sum_univ_two, one_apply]
    norm_num
  · intro u hu
    rw [hcov]
    have := hu.unit
    simp [variance, Fin.sum_univ_two, one_apply] at this ⊢
    nlinarith


/-- Two gates without fading memory, with a limit above all variances: silent. -/
example {eigh : Eigh} (heigh : EighSpec eigh) : ∃ f : KG 1 2, Static f ∧ f.P.PosSemidef ∧
    (Est.new f (fun _ => 0) (some 0) (fun _ => .fin 5) (fun _ => 1)).require eigh [0, 1] = none := by
  refine ⟨KG.new none none none none none 1, ⟨rfl, rfl, rfl⟩, PosSemidef.one, ?_⟩
  refine (kalman_request heigh (by simp) _ PosSemidef.one _ _ _ 5 (by norm_num)).1.2 fun u hu => ?_
  have hcov : (Est.new (KG.new none none none none none 1 : KG 1 2) (fun _ => 0) (some 0) (fun _ => .fin 5)
      (fun _ => 1)).cov = 1 := by
    ext i j
    simp [Est.cov, Est.new, KG.new, one_apply]
  rw [hcov]
  have := hu.unit
  simp [variance, Fin.sum_univ_two, one_apply] at this ⊢
  nlinarith

end Qtune.Kalman
