import Verif.EndToEnd.RoughKalman

/-!
# End to end: several tuners with Kalman estimators that know the gradients roughly

The Newton steps of a tuner then change the parameters of the other tuners, and measurements that the
estimators request may do so, too.
-/

namespace Qtune.EndToEnd

open Matrix Qtune.Tuner Qtune.Gradient Qtune.Autotuner Qtune.Kalman

variable {n m K : Nat}

/-- The tuners as they are set up: targets and gates of the plan, the shared Kalman estimator `E k` without dynamics
for parameter `k`, with a positive definite covariance whose variances are at most `lam k`, the limit `l` and
the step size `ε` for all gates; no queued voltages, no maximal step sizes. -/
structure RoughInitial (P : Plan n m K) (l ε : ℝ) (lam : Fin m → ℝ) (E : Fin m → Est n) (w : Shared (Est n) n) :
    Prop where
  ests : w.ests = List.ofFn E
  static : ∀ k, Static (E k).filter
  covariance : ∀ k, (E k).cov.PosDef
  bound : ∀ k, 0 < lam k ∧ ∀ v : Vec n, ∑ i, v i ^ 2 = 1 → variance (E k).cov v ≤ lam k
  limit : ∀ k, (E k).maxCov = fun _ => .fin l
  eps : ∀ k, (E k).eps = fun _ => ε
  /-- the estimators have no value yet, or the value at their position -/
  value : ∀ k, (E k).value = none ∨ Measured (fun v => P.response k v / P.scale k) (E k)
  tuner : ∀ i < K, P.Tuner i (w.tuners i)
  maxStep : ∀ i < K, (w.tuners i).maxStep = none

theorem learns_surprise {g : Vec n} {l ε : ℝ} {e : Est n} (hs : Static e.filter) (hc : e.cov.PosDef)
    (hl : e.maxCov = fun _ => .fin l) (hε : e.eps = fun _ => ε) : Learns g l ε (surprise e g) e := by
  have hdet : IsUnit e.filter.P.det := by
    rw [cov_submatrix', det_submatrix_equiv_self]
    exact (isUnit_iff_isUnit_det _).1 hc.isUnit
  refine ⟨hs, ?_, hl, hε, e.filter.P⁻¹ *ᵥ (e.filter.x - wide g), ?_, ?_⟩
  · rw [cov_submatrix']
    exact hc.posSemidef.submatrix _
  · rw [mulVec_mulVec, mul_nonsing_inv _ hdet, one_mulVec]
  · rw [surprise_eq, variance_eq, variance_eq, mulVec_mulVec, mul_nonsing_inv _ hdet, one_mulVec, dotProduct_comm]

/-- **C134**.  An autotuner with `K` tuners without maximal step sizes, whose Newton solvers share Kalman
estimators, tunes an affine device whose evaluators report positive variances although the estimators know
the gradients only roughly.  In units of the targets of the owners let
* `σ` be a lower bound for how much any combination of the parameters changes in its direction of steepest slope, with
  the gates of a single tuner,
* `ρ²` be a bound for the sum of `lam k * dᵀ P⁻¹ d` over the estimators, where `d` is the initial error of the gradient and
  `lam k` the largest initial variance (if the covariance is a multiple of the identity, this is the squared length
  of `d`),
* `r` be the largest variance of a value and `τ` the smallest tolerance,
* `s = √K |ε| √(Σ slope²)`, by which a requested measurement may increase what is missing,
* `η > 0` be such that `(K - 1) (s + η) + η ≤ (1 - √K ρ / (σ - ρ)) τ`: what a Newton step gains is more
  than what requested measurements of the other tuners spoil.

Then no call of `iterate` raises and the tuning is complete after at most `K + (N + 1) (K + 2)` calls, if `N η` is at
least the given combination of what is missing at the start and of the sum of the initial variances. -/
theorem rough_hierarchy_is_tuned {P : Plan n m K} (hP : P.Valid) {eigh : Eigh} (heigh : EighSpec eigh)
    {nullspace : Nullspace} (hnull : NullspaceSpec nullspace) {lstsq : Newton.Lstsq (Fin n)}
    (hls : Newton.LstsqSpec lstsq) (c : Vec n) {l ε r : ℝ} (hl : 0 < l) (hε : 1 / 10000000 ≤ |ε|)
    (hvar : ∀ y ∈ P.variances, 0 < y ∧ ∀ k, y / (P.scale k * P.scale k) ≤ r) {lam : Fin m → ℝ}
    {E : Fin m → Est n} {w : Shared (Est n) n} (hw : RoughInitial P l ε lam E w) {σ ρ τ η s : ℝ}
    (hσ : ∀ i < K, ∀ x : Fin m → ℝ,
      σ * len x ≤ len fun j => if j ∈ P.gates i then ∑ k, x k * (P.grad k j / P.scale k) else 0)
    (hρ0 : 0 ≤ ρ) (hρσ : (1 + Real.sqrt K) * ρ < σ)
    (hρ : ∑ k, lam k * surprise (E k) (fun i => P.grad k i / P.scale k) ≤ ρ ^ 2)
    (hτ : ∀ k tol, (P.row (P.owner k) k).tolerance = some tol → τ ≤ tol)
    (hs : s = Real.sqrt K * (|ε| * Real.sqrt (∑ k, ∑ i, (P.grad k i / P.scale k) ^ 2)))
    (hη : 0 < η) (hgain : (K - 1) * (s + η) + η ≤ (1 - Real.sqrt K * (ρ / (σ - ρ))) * τ) (N : Nat)
    (hN : P.toDo c + (s + (K - 1) * (s + η) + η) / (ε ^ 2 * l ^ 2 / (ε ^ 2 * l + r)) * (∑ k, ∑ i, (E k).cov i i) +
      (K - 1) * (s + η) ≤ N * η) :
    P.CompletesWithin (kalmanI eigh nullspace) lstsq (K + (N + 1) * (K + 2)) (fresh w (volts c)) := by
  rcases Nat.eq_zero_or_pos K with rfl | hK
  · refine ⟨0, by omega, fresh w (volts c), rfl, by simp [isComplete, multiHierarchy, fresh], c, rfl, fun i hi => ?_⟩
    exact absurd hi (Nat.not_lt_zero i)
  have hK1 : (1 : ℝ) ≤ K := by exact_mod_cast hK
  let χ : Fin m → ℝ := fun k => surprise (E k) (P.slope k)
  have hpos : ∀ k, ∀ y ∈ P.seen k, 0 < y ∧ y ≤ r := by
    rintro k y ⟨v, hv, rfl⟩
    exact ⟨div_pos (hvar v hv).1 (mul_self_pos.2 (hP.own k).2.2), (hvar v hv).2 k⟩
  have hpos' : ∀ k, ∀ y ∈ P.seen k, 0 < y := fun k y hy => (hpos k y hy).1
  have hlam : ∀ k, 0 < lam k := fun k => (hw.bound k).1
  have hsq : 0 ≤ Real.sqrt (K : ℝ) := Real.sqrt_nonneg _
  have hρσ' : ρ < σ := by nlinarith
  have hr : 0 < r := by
    obtain ⟨k, hk⟩ := hP.busy 0 hK
    obtain ⟨vals, vars, -, hk'⟩ := hP.evaluators 0 hK c
    obtain ⟨y, hy, -⟩ := ((hk' k).1 hk).2
    have := hpos k _ ⟨y, hy, rfl⟩
    linarith
  have hε0 : ε ≠ 0 := by
    rintro rfl
    norm_num at hε
  set δ := ε ^ 2 * l ^ 2 / (ε ^ 2 * l + r) with hδ
  have hδ0 : 0 < δ := by positivity
  have hs0 : 0 ≤ s := by
    rw [hs]
    positivity
  set h := s + η with hh
  set B := (s + (K - 1) * h + η) / δ with hB
  have hh0 : 0 ≤ h := by linarith
  have hKh : 0 ≤ (K - 1) * h := mul_nonneg (by linarith) hh0
  have hB0 : 0 ≤ B := div_nonneg (by linarith) hδ0.le
  have hBδ : B * δ = s + (K - 1) * h + η := by
    rw [hB]
    field_simp
  have hindex : ∀ i : Nat, i < K → h * i ≤ (K - 1) * h := by
    intro i hi
    have : (i : ℝ) ≤ K - 1 := by
      have : (i : ℝ) + 1 ≤ K := by exact_mod_cast hi
      linarith
    nlinarith
  let Ψ : Nat → Vec n → (Fin m → Est n) → ℝ := fun i q E => P.toDo q + B * allVariances E + h * i
  have hgain0 : 0 ≤ 1 - Real.sqrt K * (ρ / (σ - ρ)) := by
    have h1 : Real.sqrt K * (ρ / (σ - ρ)) = Real.sqrt K * ρ / (σ - ρ) := by ring
    rw [h1, sub_nonneg, div_le_one (by linarith)]
    nlinarith
  have hrest : P.Resting (Rough P l ε χ lam) (fun i => ((w.tuners i).maxStep, (w.tuners i).maxNumber)) w E :=
    ⟨hw.ests, fun k => ⟨⟨learns_surprise (hw.static k) (hw.covariance k) (hw.limit k) (hw.eps k), hw.value k⟩,
      (hw.bound k).2⟩, fun j hj => ⟨hw.tuner j hj, rfl, rfl⟩⟩
  refine descent_start hP (rough_accepts hpos') Ψ hη ?_ ?_ hrest N ?_
  · intro i q w E hi hst
    have h1 := P.toDo_nonneg q
    have h2 := mul_nonneg hB0 (allVariances_nonneg hst.know)
    have h3 : 0 ≤ h * (i : ℝ) := mul_nonneg hh0 (Nat.cast_nonneg i)
    simp only [Ψ]
    linarith
  · intro i q w₁ E₁ hi hst tuned
    obtain ⟨q', hnext, hcase⟩ := rough_suggestion hP heigh hnull hls hl hlam hρ0 hρσ' hρ
      (fun i hi => hw.maxStep i hi) hi (hσ i hi) hst tuned
    refine ⟨q', w₁.get i, E₁, hnext, put_get_resting hst.toResting hi, ?_⟩
    intro i' w' E' hi' hst' hf hsame
    have hdec := allVariances_le hpos' hst.know hf hsame
    have hi0 : 0 ≤ h * (i : ℝ) := mul_nonneg hh0 (Nat.cast_nonneg i)
    have hi1 := hindex i' hi'
    simp only [Ψ]
    rcases hcase with hnewton | ⟨k, v, ho, hv, hlt, rfl⟩
    · have h1 := P.not_met hst.not hτ
      have h2 := mul_le_mul_of_nonneg_left h1 hgain0
      have h3 := mul_le_mul_of_nonneg_left hdec hB0
      linarith
    · have hlenv : len v = 1 := by unfold len; rw [hv, Real.sqrt_one]
      have h1 := P.toDo_add hP q (ε • v)
      rw [len_smul, hlenv] at h1
      have h2 : Real.sqrt K * (frob P.slope * (|ε| * 1)) = s := by
        rw [hs]
        have : frob P.slope = Real.sqrt (∑ k, ∑ i, (P.grad k i / P.scale k) ^ 2) := rfl
        rw [this]
        ring
      rw [h2] at h1
      rcases Nat.lt_or_ge i' i with hlt' | hge
      · have h3 := mul_le_mul_of_nonneg_left hdec hB0
        have h4 : (i' : ℝ) + 1 ≤ i := by exact_mod_cast hlt'
        have h5 : h * ((i' : ℝ) + 1) ≤ h * i := mul_le_mul_of_nonneg_left h4 hh0
        linarith
      · have h3 := allVariances_request hl hε hpos hst.know (i := i') (by omega) (hst.own k ho) hv hlt hf hsame
        have h4 := mul_le_mul_of_nonneg_left h3 hB0
        have h5 : B * (allVariances E₁ - δ) = B * allVariances E₁ - (s + (K - 1) * h + η) := by
          rw [mul_sub, hBδ]
        rw [← hδ] at h4
        linarith
  · intro i w' E' hi hst hf hsame
    have hdec := mul_le_mul_of_nonneg_left (allVariances_le hpos' hrest.know hf hsame) hB0
    have hi1 := hindex i hi
    simp only [Ψ]
    have : allVariances E = ∑ k, ∑ i, (E k).cov i i := rfl
    rw [this] at hdec
    linarith

/-- **C134**, without numbers: the tuning is complete after finitely many calls. -/
theorem rough_hierarchy_is_tuned_finally {P : Plan n m K} (hP : P.Valid) {eigh : Eigh} (heigh : EighSpec eigh)
    {nullspace : Nullspace} (hnull : NullspaceSpec nullspace) {lstsq : Newton.Lstsq (Fin n)}
    (hls : Newton.LstsqSpec lstsq) (c : Vec n) {l ε r : ℝ} (hl : 0 < l) (hε : 1 / 10000000 ≤ |ε|)
    (hvar : ∀ y ∈ P.variances, 0 < y ∧ ∀ k, y / (P.scale k * P.scale k) ≤ r) {lam : Fin m → ℝ}
    {E : Fin m → Est n} {w : Shared (Est n) n} (hw : RoughInitial P l ε lam E w) {σ ρ τ : ℝ}
    (hσ : ∀ i < K, ∀ x : Fin m → ℝ,
      σ * len x ≤ len fun j => if j ∈ P.gates i then ∑ k, x k * (P.grad k j / P.scale k) else 0)
    (hρ0 : 0 ≤ ρ) (hρσ : (1 + Real.sqrt K) * ρ < σ)
    (hρ : ∑ k, lam k * surprise (E k) (fun i => P.grad k i / P.scale k) ≤ ρ ^ 2)
    (hτ : ∀ k tol, (P.row (P.owner k) k).tolerance = some tol → τ ≤ tol)
    (hgain : (K - 1) * (Real.sqrt K * (|ε| * Real.sqrt (∑ k, ∑ i, (P.grad k i / P.scale k) ^ 2))) <
      (1 - Real.sqrt K * (ρ / (σ - ρ))) * τ) :
    ∃ N, P.CompletesWithin (kalmanI eigh nullspace) lstsq N (fresh w (volts c)) := by
  set s := Real.sqrt K * (|ε| * Real.sqrt (∑ k, ∑ i, (P.grad k i / P.scale k) ^ 2)) with hs
  set g := (1 - Real.sqrt K * (ρ / (σ - ρ))) * τ with hg
  obtain ⟨η, hη, hη'⟩ : ∃ η : ℝ, 0 < η ∧ (K - 1) * (s + η) + η ≤ g := by
    rcases Nat.eq_zero_or_pos K with rfl | hK
    · refine ⟨1, one_pos, ?_⟩
      push_cast at hgain ⊢
      linarith
    · have hK' : (0 : ℝ) < K := by exact_mod_cast hK
      refine ⟨(g - (K - 1) * s) / K, div_pos (by linarith) hK', le_of_eq ?_⟩
      field_simp
      ring
  obtain ⟨N, hN⟩ := exists_nat_ge ((P.toDo c + (s + (K - 1) * (s + η) + η) / (ε ^ 2 * l ^ 2 / (ε ^ 2 * l + r)) *
    (∑ k, ∑ i, (E k).cov i i) + (K - 1) * (s + η)) / η)
  rw [div_le_iff₀ hη] at hN
  exact ⟨_, rough_hierarchy_is_tuned hP heigh hnull hls c hl hε hvar hw hσ hρ0 hρσ hρ hτ hs hη hη' N hN⟩

/-! ### A hierarchy that meets the hypotheses -/

/-- Estimator with the given gradient, variance 2 in all directions, limit 1 and step size 1/100. -/
noncomputable def roughEst (g : Vec 2) : Est 2 :=
  ⟨KG.new none (some g) (some ((2 : ℝ) • 1)) none none 1, fun _ => none, none, fun _ => .fin 1, fun _ => 1 / 100⟩

/-- The estimates of the gradients are wrong by 1/20. -/
noncomputable def roughEsts : Fin 2 → Est 2 := ![roughEst ![11 / 20, -1 / 4], roughEst ![1 / 2, 29 / 20]]

noncomputable def roughShared : Shared (Est 2) 2 where
  tuners := fun i =>
    ⟨⟨samplePlan.target i, [], [0, 1], fun _ => none, [("x", none), ("y", none)]⟩,
      [], fun _ => none, [(if i = 0 then "x" else "y", none)], [], false, [], none, 5, 0⟩
  ests := List.ofFn roughEsts

theorem roughEst_cov (g : Vec 2) : (roughEst g).cov = (2 : ℝ) • 1 := by
  funext i j
  fin_cases i <;> fin_cases j <;> simp [roughEst, Est.cov, KG.new, one_apply]

theorem roughEsts_eq (k : Fin 2) : ∃ g, roughEsts k = roughEst g := by
  fin_cases k
  · exact ⟨_, rfl⟩
  · exact ⟨_, rfl⟩

theorem rough_initial : RoughInitial samplePlan 1 (1 / 100) (fun _ => 2) roughEsts roughShared where
  ests := rfl
  static := fun k => by obtain ⟨g, hg⟩ := roughEsts_eq k; rw [hg]; exact ⟨rfl, rfl, rfl⟩
  covariance := fun k => by
    obtain ⟨g, hg⟩ := roughEsts_eq k
    rw [hg, roughEst_cov]
    exact PosDef.one.smul (by norm_num)
  bound := fun k => by
    refine ⟨two_pos, fun v hv => ?_⟩
    obtain ⟨g, hg⟩ := roughEsts_eq k
    rw [hg, roughEst_cov]
    have : variance ((2 : ℝ) • (1 : Matrix (Fin 2) (Fin 2) ℝ)) v = 2 * ∑ i, v i ^ 2 := by
      simp [variance, Fin.sum_univ_two, one_apply]
      ring
    rw [this, hv, mul_one]
  limit := fun k => by obtain ⟨g, hg⟩ := roughEsts_eq k; rw [hg]; rfl
  eps := fun k => by obtain ⟨g, hg⟩ := roughEsts_eq k; rw [hg]; rfl
  value := fun k => by obtain ⟨g, hg⟩ := roughEsts_eq k; rw [hg]; exact .inl rfl
  tuner := fun i hi => by
    refine ⟨rfl, rfl, ?_, ?_, rfl⟩
    · simp [roughShared, Series.index, samplePlan]
    · intro l hl
      have hi' : i = 0 ∨ i = 1 := by omega
      rcases hi' with rfl | rfl
      · exact ⟨0, rfl, by simpa [roughShared, Series.index, samplePlan] using hl⟩
      · exact ⟨1, rfl, by simpa [roughShared, Series.index, samplePlan] using hl⟩
  maxStep := fun i _ => rfl

/-- The device with two tuners is tuned from every starting point, although the gradients are wrong and the
uncertainties exceed the limit. -/
example (c : Vec 2) {eigh : Eigh} (heigh : EighSpec eigh) {nullspace : Nullspace} (hnull : NullspaceSpec nullspace)
    {lstsq : Newton.Lstsq (Fin 2)} (hls : Newton.LstsqSpec lstsq) :
    ∃ N, samplePlan.CompletesWithin (kalmanI eigh nullspace) lstsq N (fresh roughShared (volts c)) := by
  have h2 : Real.sqrt ((2 : ℕ) : ℝ) < 3 / 2 := by
    rw [Real.sqrt_lt' (by norm_num)]
    norm_num
  have h0 : 0 ≤ Real.sqrt ((2 : ℕ) : ℝ) := Real.sqrt_nonneg _
  have hsl : Real.sqrt (∑ k, ∑ i, (samplePlan.grad k i / samplePlan.scale k) ^ 2) < 17 / 10 := by
    rw [Real.sqrt_lt' (by norm_num)]
    simp [Fin.sum_univ_two, samplePlan]
    norm_num
  have hsl0 := Real.sqrt_nonneg (∑ k, ∑ i, (samplePlan.grad k i / samplePlan.scale k) ^ 2)
  refine rough_hierarchy_is_tuned_finally (r := 1) (σ := 1 / 2) (ρ := 1 / 10) (τ := 1 / 10) samplePlan_valid heigh hnull
    hls c one_pos (by norm_num [abs_of_pos]) ?_ rough_initial ?_ (by norm_num) (by linarith) ?_ ?_ ?_
  · intro y hy
    rw [Set.mem_singleton_iff.1 hy]
    refine ⟨one_pos, fun k => ?_⟩
    fin_cases k <;> simp [samplePlan] <;> norm_num
  · intro i _ x
    rw [show (1 / 2 : ℝ) * len x = Real.sqrt ((1 / 2) ^ 2 * ∑ i, x i ^ 2) by
      rw [Real.sqrt_mul (by norm_num), Real.sqrt_sq (by norm_num)]; rfl]
    unfold len
    apply Real.sqrt_le_sqrt
    simp [samplePlan, Fin.sum_univ_two]
    nlinarith [sq_nonneg (x 0 - 2 * x 1), sq_nonneg (x 0), sq_nonneg (x 1)]
  · have hinv : ∀ g, (roughEst g).cov⁻¹ = (1 / 2 : ℝ) • 1 := by
      intro g
      apply inv_eq_right_inv
      rw [roughEst_cov]
      simp [smul_smul]
    simp only [Fin.sum_univ_two, surprise, roughEsts, cons_val_zero, cons_val_one, hinv]
    simp [variance, Fin.sum_univ_two, one_apply, Est.estimate, roughEst, KG.new, KG.grad, samplePlan]
    norm_num
  · intro k tol h
    fin_cases k
    · simp [samplePlan] at h
      rw [← h]
      norm_num
    · simp [samplePlan] at h
      rw [← h]
      norm_num
  · have e1 : |(1 / 100 : ℝ)| = 1 / 100 := abs_of_pos (by norm_num)
    rw [e1]
    push_cast at h0 h2 ⊢
    nlinarith

end Qtune.EndToEnd
