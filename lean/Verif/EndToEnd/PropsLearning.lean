import Verif.EndToEnd.LearningRun

/-!
# End to end with Kalman estimators that have to learn the gradients

The estimators may start with wrong gradients.  They are corrected by the requested measurements and by the
Newton steps themselves.
-/

namespace Qtune.EndToEnd

open Matrix Qtune.Tuner Qtune.Gradient Qtune.Autotuner Qtune.Kalman

variable {n m : Nat}

/-- The error of the estimated gradient in units of the uncertainty that the estimator states: `dᵀ P⁻¹ d`. -/
noncomputable def surprise (e : Est n) (g : Vec n) : ℝ :=
  variance e.cov⁻¹ fun i => e.estimate i - g i

/-- The tuner as it is set up: the target of `S`, the Kalman estimator `E k` without dynamics for parameter `k`, with
a positive definite covariance, the limit `l` and the step size `ε` for all gates; no queued voltages, no
maximal step size. -/
structure LearningInitial (S : Setup n m) (l ε : ℝ) (E : Fin m → Est n) (t : OneTuner (Est n) n) : Prop where
  target : t.solver.target = S.target
  ests : t.solver.ests = List.ofFn E
  static : ∀ k, Static (E k).filter
  covariance : ∀ k, (E k).cov.PosDef
  limit : ∀ k, (E k).maxCov = fun _ => .fin l
  eps : ∀ k, (E k).eps = fun _ => ε
  /-- the estimators have no value yet, or the value at their position -/
  value : ∀ k, (E k).value = none ∨ Measured (fun v => S.response k v / S.scale k) (E k)
  gates : t.solver.gates = S.gates
  index : t.solver.values.index = S.target.names
  lastIndex : t.lastValues.index ⊆ S.target.names
  queued : t.queued = 0
  maxStep : t.maxStep = none

theorem cov_submatrix (e : Est n) :
    e.cov = e.filter.P.submatrix (finCongr (one_mul n).symm) (finCongr (one_mul n).symm) := rfl

theorem cov_submatrix' (e : Est n) : e.filter.P = e.cov.submatrix (finCongr (one_mul n)) (finCongr (one_mul n)) := rfl

theorem surprise_eq (e : Est n) (g : Vec n) : surprise e g = variance e.filter.P⁻¹ (e.filter.x - wide g) := by
  have hx : wide (fun i => e.estimate i - g i) = e.filter.x - wide g := by
    funext j
    have h1 := congrFun (flat_grad e.filter) j
    have h2 : j.divNat = 0 := Subsingleton.elim _ _
    have h3 : j.modNat = j.cast (one_mul n) := by
      apply Fin.ext
      have h : j.1 < n := by have := j.2; omega
      simp [Fin.modNat, Nat.mod_eq_of_lt h]
    rw [Pi.sub_apply, ← h1]
    simp only [flat, h2, h3, wide, Est.estimate]
  rw [← hx]
  unfold surprise
  rw [cov_submatrix, inv_submatrix_equiv]
  unfold variance
  rw [← (finCongr (one_mul n)).sum_comp]
  refine Finset.sum_congr rfl fun i _ => ?_
  rw [← (finCongr (one_mul n)).sum_comp]
  exact Finset.sum_congr rfl fun j _ => rfl

theorem LearningInitial.learns {S : Setup n m} {l ε : ℝ} {E : Fin m → Est n} {t : OneTuner (Est n) n}
    (h : LearningInitial S l ε E t) (k : Fin m) :
    Learns (S.slope k) l ε (surprise (E k) (S.slope k)) (E k) := by
  have hdet : IsUnit (E k).filter.P.det := by
    rw [cov_submatrix', det_submatrix_equiv_self]
    exact (isUnit_iff_isUnit_det _).1 (h.covariance k).isUnit
  refine ⟨h.static k, ?_, h.limit k, h.eps k,
    (E k).filter.P⁻¹ *ᵥ ((E k).filter.x - wide (S.slope k)), ?_, ?_⟩
  · rw [cov_submatrix']
    exact (h.covariance k).posSemidef.submatrix _
  · rw [mulVec_mulVec, mul_nonsing_inv _ hdet, one_mulVec]
  · rw [surprise_eq, variance_eq, variance_eq, mulVec_mulVec, mul_nonsing_inv _ hdet, one_mulVec, dotProduct_comm]

/-- **C121**.  An autotuner with a single tuner without maximal step size, with a Newton solver and Kalman
estimators, tunes an affine device whose evaluators report positive variances, although the estimators do not
know the gradients.  In units of the target let
* `σ` be a lower bound for how much any combination of the parameters changes in its direction of steepest
  slope (the smallest singular value of the Jacobian),
* `ρ²` be the limit `l` times the sum of `dᵀ P⁻¹ d` over the estimators, where `d` is the initial error
  of the gradient; `2 ρ < σ`,
* `r` be the largest variance of a value.

If the sum of all initial variances is at most `R ε² l² / (ε² l + r)`, then not more than `R` measurements are
requested; Newton steps reduce what is missing to the set points at least by the factor `ρ / (σ - ρ) < 1`.
So if `N + 1` such steps are enough for what may be missing after the requests, the tuning is complete after
at most `1 + 3 * (R + N + 1)` calls of `iterate`, none of which raises. -/
theorem learns_and_tunes {S : Setup n m} (hS : S.Valid) {eigh : Eigh} (heigh : EighSpec eigh)
    {nullspace : Nullspace} (hnull : NullspaceSpec nullspace) {lstsq : Newton.Lstsq (Fin n)}
    (hls : Newton.LstsqSpec lstsq) (c : Vec n) {l ε r : ℝ} (hl : 0 < l) (hε : 1 / 10000000 ≤ |ε|)
    (hvar : ∀ y ∈ S.variances, 0 < y ∧ ∀ k, y / (S.scale k * S.scale k) ≤ r)
    {E : Fin m → Est n} {t : OneTuner (Est n) n} (ht : LearningInitial S l ε E t) {σ ρ : ℝ}
    (hσ : ∀ x : Fin m → ℝ, σ * len x ≤ len fun i => ∑ k, x k * (S.grad k i / S.scale k))
    (hρ0 : 0 ≤ ρ) (hρσ : 2 * ρ < σ)
    (hρ : l * ∑ k, surprise (E k) (fun i => S.grad k i / S.scale k) ≤ ρ ^ 2) (R N : Nat)
    (hR : ∑ k, ∑ i, (E k).cov i i ≤ R * (ε ^ 2 * l ^ 2 / (ε ^ 2 * l + r)))
    (hN : ∀ k tol, (S.row k).tolerance = some tol →
      (ρ / (σ - ρ)) ^ (N + 1) * (len (fun k => S.desired k - S.response k c / S.scale k) +
        R * (|ε| * Real.sqrt (∑ k, ∑ i, (S.grad k i / S.scale k) ^ 2))) < tol) :
    CompletesWithin S (kalmanI eigh nullspace) lstsq (1 + 3 * (R + N + 1)) (fresh t (volts c)) := by
  have hn : n ≠ 0 := by
    rintro rfl
    have := hS.independent.fintype_card_le_finrank
    simp at this
    exact hS.nonempty this
  have hbase : Base S (t.maxStep, t.maxNumber) E t :=
    ⟨ht.target, ht.ests, ht.gates, ht.index, rfl, rfl, ht.queued, ht.lastIndex⟩
  have hpos : ∀ k, ∀ y ∈ S.seen k, 0 < y ∧ y ≤ r := by
    rintro k y ⟨v, hv, rfl⟩
    exact ⟨div_pos (hvar v hv).1 (mul_self_pos.2 (hS.scale k).2), (hvar v hv).2 k⟩
  have hup := learning_update hS (eigh := eigh) (nullspace := nullspace) (S := S) (l := l) (ε := ε)
    (χ := fun k => surprise (E k) (S.slope k)) (fun k => ⟨ht.learns k, ht.value k⟩) (fun k y hy => (hpos k y hy).1) c
  refine first_evaluation (A := fun k e => (Learns (S.slope k) l ε (surprise (E k) (S.slope k)) e ∧
      MeasuredAt (S.scaled k) c e) ∧ ∑ i, e.cov i i ≤ ∑ i, (E k).cov i i) hS.toSound hbase c ?_ _ ?_
  · intro k y hy
    obtain ⟨e', he', h1, -, h2⟩ := hup k y hy
    exact ⟨e', he', h1, h2⟩
  · intro E' t' hAt hE'
    refine learning_phase hS hn ht.maxStep heigh hnull hls hl hε hσ hρ0 (by linarith) hρ hpos N R E' c t' hAt
      (fun k => (hE' k).1) (le_trans (Finset.sum_le_sum fun k _ => (hE' k).2) hR) hN

/-- **C121**, without numbers: the tuning is complete after finitely many calls. -/
theorem learns_and_tunes_finally {S : Setup n m} (hS : S.Valid) {eigh : Eigh} (heigh : EighSpec eigh)
    {nullspace : Nullspace} (hnull : NullspaceSpec nullspace) {lstsq : Newton.Lstsq (Fin n)}
    (hls : Newton.LstsqSpec lstsq) (c : Vec n) {l ε r : ℝ} (hl : 0 < l) (hε : 1 / 10000000 ≤ |ε|)
    (hvar : ∀ y ∈ S.variances, 0 < y ∧ ∀ k, y / (S.scale k * S.scale k) ≤ r)
    {E : Fin m → Est n} {t : OneTuner (Est n) n} (ht : LearningInitial S l ε E t) {σ : ℝ} (hσ0 : 0 < σ)
    (hσ : ∀ x : Fin m → ℝ, σ * len x ≤ len fun i => ∑ k, x k * (S.grad k i / S.scale k))
    (hρ : l * ∑ k, surprise (E k) (fun i => S.grad k i / S.scale k) < (σ / 2) ^ 2) :
    ∃ K, CompletesWithin S (kalmanI eigh nullspace) lstsq K (fresh t (volts c)) := by
  have hnn : 0 ≤ l * ∑ k, surprise (E k) (fun i => S.grad k i / S.scale k) := by
    refine mul_nonneg hl.le (Finset.sum_nonneg fun k _ => ?_)
    unfold surprise
    rw [variance_eq]
    simpa using (ht.covariance k).inv.posSemidef.dotProduct_mulVec_nonneg
      fun i => (E k).estimate i - S.grad k i / S.scale k
  set ρ := Real.sqrt (l * ∑ k, surprise (E k) (fun i => S.grad k i / S.scale k)) with hρdef
  have hρ0 : 0 ≤ ρ := Real.sqrt_nonneg _
  have hρ2 : ρ ^ 2 = l * ∑ k, surprise (E k) (fun i => S.grad k i / S.scale k) := Real.sq_sqrt hnn
  have hρσ : 2 * ρ < σ := by
    have : ρ < σ / 2 := by
      rw [hρdef, Real.sqrt_lt' (by linarith)]
      exact hρ
    linarith
  have hr : 0 < r := by
    obtain ⟨y, hy, -⟩ := hS.evaluators c
    have k : Fin m := ⟨0, Nat.pos_of_ne_zero hS.nonempty⟩
    obtain ⟨h1, h2⟩ := hvar _ (hy k)
    exact lt_of_lt_of_le (div_pos h1 (mul_self_pos.2 (hS.scale k).2)) (h2 k)
  have hε0 : ε ≠ 0 := by
    rintro rfl
    norm_num at hε
  have hδ : 0 < ε ^ 2 * l ^ 2 / (ε ^ 2 * l + r) := by positivity
  obtain ⟨R, hR⟩ := exists_nat_ge ((∑ k, ∑ i, (E k).cov i i) / (ε ^ 2 * l ^ 2 / (ε ^ 2 * l + r)))
  rw [div_le_iff₀ hδ] at hR
  set B := len (fun k => S.desired k - S.response k c / S.scale k) +
        R * (|ε| * Real.sqrt (∑ k, ∑ i, (S.grad k i / S.scale k) ^ 2)) with hB
  have hlim : Filter.Tendsto (fun N : ℕ => (ρ / (σ - ρ)) ^ (N + 1) * B) Filter.atTop (nhds 0) := by
    have h1 : Filter.Tendsto (fun N : ℕ => (ρ / (σ - ρ)) ^ N) Filter.atTop (nhds 0) := by
      apply tendsto_pow_atTop_nhds_zero_of_lt_one (div_nonneg hρ0 (by linarith))
      rw [div_lt_one (by linarith)]
      linarith
    have h2 := ((Filter.tendsto_add_atTop_iff_nat 1).2 h1).mul_const B
    simpa using h2
  have hev : ∀ᶠ N : ℕ in Filter.atTop, ∀ k : Fin m, ∀ tol, (S.row k).tolerance = some tol →
      (ρ / (σ - ρ)) ^ (N + 1) * B < tol := by
    rw [Filter.eventually_all]
    intro k
    cases hk : (S.row k).tolerance with
    | none => simp
    | some tol =>
      filter_upwards [hlim.eventually (gt_mem_nhds (hS.tolerance k tol hk))] with N hN tol' htol'
      cases htol'
      exact hN
  obtain ⟨N, hN⟩ := hev.exists
  exact ⟨_, learns_and_tunes hS heigh hnull hls c hl hε hvar ht hσ hρ0 hρσ hρ2.ge R N hR hN⟩

/-! ### A tuner that meets the hypotheses -/

/-- The gradient is taken to be 0, with the variance 10 in all directions; limit 1. -/
noncomputable def ignorantEst : Est 2 :=
  ⟨KG.new none none (some ((10 : ℝ) • 1)) none none 1, fun _ => none, none, fun _ => .fin 1, fun _ => 3⟩

noncomputable def ignorantTuner : OneTuner (Est 2) 2 :=
  ⟨⟨sampleSetup.target, [ignorantEst], [0, 1], fun _ => none, [("x", none)]⟩,
    [], fun _ => none, [], [], false, [], none, 5, 0⟩

theorem ignorantEst_cov : ignorantEst.cov = (10 : ℝ) • 1 := by
  funext i j
  fin_cases i <;> fin_cases j <;> simp [ignorantEst, Est.cov, KG.new, one_apply]

theorem ignorantTuner_initial : LearningInitial sampleSetup 1 3 (fun _ => ignorantEst) ignorantTuner where
  target := rfl
  ests := rfl
  static := fun _ => ⟨rfl, rfl, rfl⟩
  covariance := fun _ => by
    rw [ignorantEst_cov]
    exact PosDef.one.smul (by norm_num)
  limit := fun _ => rfl
  eps := fun _ => rfl
  value := fun _ => .inl rfl
  gates := rfl
  index := rfl
  lastIndex := by simp [ignorantTuner, Series.index]
  queued := rfl
  maxStep := rfl

/-- The tutorial-like device is tuned from every starting point by estimators that know nothing. -/
example (c : Vec 2) {eigh : Eigh} (heigh : EighSpec eigh) {nullspace : Nullspace} (hnull : NullspaceSpec nullspace)
    {lstsq : Newton.Lstsq (Fin 2)} (hls : Newton.LstsqSpec lstsq) :
    ∃ K, CompletesWithin sampleSetup (kalmanI eigh nullspace) lstsq K (fresh ignorantTuner (volts c)) := by
  refine learns_and_tunes_finally (r := 1) (σ := 2236 / 4000) sampleSetup_valid heigh hnull hls c one_pos
    (by norm_num) ?_ ignorantTuner_initial (by norm_num) ?_ ?_
  · intro y hy
    rw [Set.mem_singleton_iff.1 hy]
    refine ⟨one_pos, fun k => ?_⟩
    simp [sampleSetup]
    norm_num
  · intro x
    have h1 : len x = |x 0| := by simp [len, Real.sqrt_sq_eq_abs]
    have h2 : len (fun i => ∑ k, x k * (sampleSetup.grad k i / sampleSetup.scale k)) =
        |x 0| * Real.sqrt (5 / 16) := by
      unfold len
      rw [← Real.sqrt_sq_eq_abs, ← Real.sqrt_mul (sq_nonneg _)]
      congr 1
      simp [sampleSetup, Fin.sum_univ_two]
      ring
    rw [h1, h2, mul_comm]
    refine mul_le_mul_of_nonneg_left (Real.le_sqrt_of_sq_le ?_) (abs_nonneg _)
    norm_num
  · have hinv : ignorantEst.cov⁻¹ = (1 / 10 : ℝ) • 1 := by
      apply inv_eq_right_inv
      rw [ignorantEst_cov]
      simp [smul_smul]
    have : ∀ k, surprise ignorantEst (fun i => sampleSetup.grad k i / sampleSetup.scale k) = 1 / 32 := by
      intro k
      unfold surprise
      rw [hinv]
      simp [variance, Fin.sum_univ_two, one_apply, Est.estimate, ignorantEst, KG.new, KG.grad, sampleSetup]
      norm_num
    simp only [this]
    norm_num

end Qtune.EndToEnd
