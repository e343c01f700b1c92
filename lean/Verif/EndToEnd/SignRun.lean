import Verif.EndToEnd.PropsTorn

/-! # Helper lemmas: one gate, an estimator that knows the sign of the gradient -/

namespace Qtune.EndToEnd

open Qtune.Tuner Qtune.Gradient Qtune.Kalman Qtune.Autotuner Matrix

/-- An update of the estimator of a single gate: variance and error are reduced by the same factor. -/
theorem one_gate_update {g b : ℝ} {e : Est 1} (hs : Static e.filter) (hP : e.filter.P.PosSemidef) {q : Vec 1} (hp : e.pos = volts q)
    (hv : e.value = some (b + g * q 0)) (c : Vec 1) {r : ℝ} (hr : 0 < r) :
    ∃ e' θ, e.update (volts c) (b + g * c 0) r true = (e', .ok ()) ∧ Static e'.filter ∧ e'.filter.P.PosSemidef ∧ e'.maxCov = e.maxCov ∧ e'.eps = e.eps ∧
      e'.pos = volts c ∧ e'.value = some (b + g * c 0) ∧ 0 < θ ∧ θ ≤ 1 ∧ e'.cov 0 0 = θ * e.cov 0 0 ∧
      e'.estimate 0 - g = θ * (e.estimate 0 - g) ∧
      (1 / 10000000 ≤ |c 0 - q 0| → θ = r / (e.cov 0 0 * (c 0 - q 0) ^ 2 + r)) := by
  set d : Vec 1 := fun i => c i - q i with hd
  have hnorm : Real.sqrt (∑ i, (c i - q i) ^ 2) = |c 0 - q 0| := by
    rw [Fin.sum_univ_one, Real.sqrt_sq_eq_abs]
  have hdiff : ∀ i, Val.sub (volts c i) (volts q i) = some (d i) := fun i => rfl
  have hex : ¬ ∃ i : Fin 1, (some (d i) : Val) = none := by rintro ⟨i, hi⟩; cases hi
  by_cases hstep : |c 0 - q 0| < 1 / 10000000
  · refine ⟨{ e with value := some (b + g * c 0), pos := volts c }, 1, ?_, hs, hP, rfl, rfl, rfl, rfl, one_pos, le_rfl, (one_mul _).symm, (one_mul _).symm,
      fun h => absurd h (not_le.2 hstep)⟩
    unfold Est.update
    simp only [hv, hp]
    simp only [hdiff, Option.getD_some]
    rw [if_pos (by rw [hd, hnorm]; exact hstep)]
    rfl
  · have hcv : ∀ f : KG 1 1, ∀ E : Est 1, E.filter = f → wide d ⬝ᵥ (f.P *ᵥ wide d) = E.cov 0 0 * (c 0 - q 0) ^ 2 := by
      rintro f E rfl
      rw [← variance_one E.cov d, cov_variance, variance_eq]
      rfl
    have hV0 : 0 ≤ e.cov 0 0 * (c 0 - q 0) ^ 2 := by
      have := cov_nonneg hP d
      rwa [variance_one] at this
    have hd0 : c 0 - q 0 ≠ 0 := by
      intro h0
      rw [h0] at hstep
      norm_num at hstep
    have hd2 : (c 0 - q 0) ^ 2 ≠ 0 := pow_ne_zero _ hd0
    obtain ⟨f', hf', hs', hP', hvar'⟩ := update_variance hs hP d (b + g * c 0 - (b + g * q 0)) hr
    obtain ⟨f'', hf'', hx⟩ := update_x hs hP d (b + g * c 0 - (b + g * q 0)) hr
    rw [hf'] at hf''
    obtain rfl : f' = f'' := (Prod.mk.inj hf'').1
    have hne : e.cov 0 0 * (c 0 - q 0) ^ 2 + r ≠ 0 := by positivity
    refine ⟨{ e with filter := f', value := some (b + g * c 0), pos := volts c }, r / (e.cov 0 0 * (c 0 - q 0) ^ 2 + r), ?_, hs', hP', rfl, rfl, rfl, rfl, by positivity,
      ?_, ?_, ?_, fun _ => rfl⟩
    · unfold Est.update
      simp only [hv, hp]
      simp only [hdiff, Option.getD_some]
      rw [if_neg (by rw [hd, hnorm]; exact hstep), if_neg hex, hf']
      rfl
    · rw [div_le_one (by positivity)]
      linarith
    · rw [hcv f' { e with filter := f', value := some (b + g * c 0), pos := volts c } rfl, hcv e.filter e rfl] at hvar'
      apply mul_right_cancel₀ hd2
      rw [hvar']
      field_simp
      ring
    · have h1 : ∀ E : Est 1, E.estimate 0 = E.filter.x 0 := fun E => rfl
      have h2 : wide d ⬝ᵥ e.filter.x = (c 0 - q 0) * e.estimate 0 := by
        have : wide d ⬝ᵥ e.filter.x = ∑ j : Fin (1 * 1), wide d j * e.filter.x j := rfl
        rw [this, h1]
        exact Fin.sum_univ_one _
      have h3 : (e.filter.P *ᵥ wide d) 0 = e.cov 0 0 * (c 0 - q 0) := by
        have : (e.filter.P *ᵥ wide d) 0 = ∑ j : Fin (1 * 1), e.filter.P 0 j * wide d j := rfl
        rw [this]
        exact Fin.sum_univ_one _
      have h4 := congrFun hx 0
      rw [Pi.add_apply, Pi.smul_apply, h2, h3, hcv e.filter e rfl, smul_eq_mul] at h4
      have h5 : (Est.mk f' (volts c) (some (b + g * c 0)) e.maxCov e.eps).estimate 0 = f'.x 0 := rfl
      rw [h5, h4, ← h1 e, show b + g * c 0 - (b + g * q 0) = g * (c 0 - q 0) by ring]
      generalize hD : e.cov 0 0 * (c 0 - q 0) ^ 2 + r = D at hne ⊢
      have hr' : r = D - e.cov 0 0 * (c 0 - q 0) ^ 2 := by linarith
      rw [hr']
      field_simp
      ring

/-- An estimator of a single gate that knows the sign of the gradient `g`: its estimate is `f g` with `f - 1` the multiple `κ` of its variance, and `f` is between
`lo` and `hi`.  Its variance is at most `L`, and it has the value at `q`. -/
structure Signed (S : Setup 1 1) (l L ε κ lo hi : ℝ) (q : Vec 1) (e : Est 1) : Prop where
  static : Static e.filter
  psd : e.filter.P.PosSemidef
  limit : e.maxCov = fun _ => .fin l
  eps : e.eps = fun _ => ε
  pos : e.pos = volts q
  value : e.value = some (S.scaled 0 q)
  positive : 0 < e.cov 0 0
  certain : e.cov 0 0 ≤ L
  factor : ∃ f, e.estimate 0 = f * S.slope 0 0 ∧ f - 1 = κ * e.cov 0 0 ∧ lo ≤ f ∧ f ≤ hi

theorem Signed.learns {S : Setup 1 1} {l L ε κ lo hi : ℝ} {q : Vec 1} {e : Est 1} (h : Signed S l L ε κ lo hi q e) :
    Learns (S.slope 0) l ε (surprise e (S.slope 0)) e := by
  refine learns_surprise h.static ?_ h.limit h.eps
  have : e.cov = Matrix.diagonal fun _ => e.cov 0 0 := by
    funext i j
    rw [Subsingleton.elim i 0, Subsingleton.elim j 0, Matrix.diagonal_apply_eq]
  rw [this]
  exact Matrix.PosDef.diagonal fun _ => h.positive

theorem Signed.update {S : Setup 1 1} (hS : S.Valid) {l L ε κ lo hi : ℝ} (hlo1 : lo ≤ 1) (hhi : 1 ≤ hi) {q : Vec 1} {e : Est 1}
    (h : Signed S l L ε κ lo hi q e) (c : Vec 1) {r : ℝ} (hr : 0 < r) (eigh : Eigh) (nullspace : Nullspace) :
    ∃ e', (kalmanI eigh nullspace).update (volts c) (some (S.scaled 0 c)) (some r) e = (e', .ok ()) ∧ Signed S l L ε κ lo hi c e' ∧
      (e.cov 0 0)⁻¹ ≤ (e'.cov 0 0)⁻¹ ∧
      (1 / 10000000 ≤ |c 0 - q 0| → (e.cov 0 0)⁻¹ + (1 / 10000000) ^ 2 / r ≤ (e'.cov 0 0)⁻¹) := by
  obtain ⟨b, hb⟩ := Setup.scaled_affine hS.affine 0
  have hb' : ∀ v, S.scaled 0 v = b + S.slope 0 0 * v 0 := by
    intro v
    rw [hb v, Fin.sum_univ_one]
    rfl
  have hv := h.value
  rw [hb'] at hv
  obtain ⟨e', θ, hup, hs, hP, hm, heps, hp, hv', hθ0, hθ1, hcov, hest, hθ⟩ := one_gate_update h.static h.psd h.pos hv c hr
  obtain ⟨f, hf, hκ, hlo, hhi'⟩ := h.factor
  have hc := h.positive
  have hc' : 0 < e'.cov 0 0 := by rw [hcov]; positivity
  refine ⟨e', ?_, ⟨hs, hP, hm.trans h.limit, heps.trans h.eps, hp, ?_, hc', ?_, 1 + θ * (f - 1), ?_, ?_, ?_, ?_⟩, ?_, ?_⟩
  · rw [hb']
    exact hup
  · rw [hb', hv']
  · rw [hcov]
    nlinarith [h.certain]
  · rw [hf] at hest
    linarith
  · rw [hκ, hcov]
    ring
  · nlinarith
  · nlinarith
  · rw [hcov]
    apply inv_anti₀ (by positivity)
    nlinarith
  · intro hd
    have h1 : (e'.cov 0 0)⁻¹ = (e.cov 0 0)⁻¹ + (c 0 - q 0) ^ 2 / r := by
      rw [hcov, hθ hd]
      have : e.cov 0 0 * (c 0 - q 0) ^ 2 + r ≠ 0 := by positivity
      field_simp
      ring
    rw [h1]
    have h2 : (1 / 10000000 : ℝ) ^ 2 ≤ (c 0 - q 0) ^ 2 := by
      rw [← sq_abs (c 0 - q 0)]
      exact pow_le_pow_left₀ (by norm_num) hd 2
    have := div_le_div_of_nonneg_right h2 hr.le
    linarith

/-- The Newton step of such an estimator. -/
theorem Signed.suggestion {S : Setup 1 1} (hS : S.Valid) {eigh : Eigh} (heigh : EighSpec eigh) {nullspace : Nullspace}
    (hnull : NullspaceSpec nullspace) {lstsq : Newton.Lstsq (Fin 1)} (hls : Newton.LstsqSpec lstsq) {μ : Val × Int} {l L ε κ lo hi : ℝ} (hl : 0 < l) (hL : L ≤ l) (hlo : 0 < lo)
    (hg : S.slope 0 0 ≠ 0) {E : Fin 1 → Est 1} {q : Vec 1} {t : OneTuner (Est 1) 1} (hAt : At S μ E q t) (h : Signed S l L ε κ lo hi q (E 0)) :
    ∃ x : Vec 1, Newton.suggest (kalmanI eigh nullspace) lstsq [] t.solver =
        ({ t.solver with ests := List.ofFn E }, .ok fun i => some (some ((q + x) i))) ∧
      len (S.miss (q + x)) ≤ (1 + lo⁻¹) * len (S.miss q) ∧ len (S.miss q) ≤ hi * |S.slope 0 0| * |x 0| := by
  have hone : ∀ k : Fin 1, k = 0 := fun k => Subsingleton.elim _ _
  have hlen : ∀ y : Fin 1 → ℝ, len y = |y 0| := fun y => by
    unfold len
    rw [Fin.sum_univ_one, Real.sqrt_sq_eq_abs]
  obtain ⟨f, hf, -, hlof, hfhi⟩ := h.factor
  have hf0 : 0 < f := by linarith
  let G : Fin 1 → Vec 1 := fun k => (E k).estimate
  have hτ : 0 < |f * S.slope 0 0| := abs_pos.2 (mul_ne_zero hf0.ne' hg)
  obtain ⟨x, hsug, hxG, -⟩ := known_suggestion hS.toSound (I := kalmanI eigh nullspace) hls hAt (G := G) (fun k tj => by
    rw [hone k]
    exact certain_silent (g := (E 0).estimate) hl
      ⟨h.static, rfl, h.psd, h.limit, fun v hv => by
        rw [Fin.sum_univ_one] at hv
        rw [variance_one, hv, mul_one]
        exact h.certain.trans hL⟩ ⟨q, h.pos, h.value⟩ heigh hnull hS.gates_nodup one_ne_zero tj)
    (fun k => rfl) hτ (fun x => by
      rw [hlen, hlen, ← abs_mul]
      simp only [comb, Fin.sum_univ_one, G, hf]
      rw [mul_comm])
  have h1 : f * S.slope 0 0 * x 0 = S.miss q 0 := by
    rw [← hxG]
    simp only [act, Fin.sum_univ_one, G, hf]
  have h2 : S.miss (q + x) 0 = S.miss q 0 * (1 - f⁻¹) := by
    rw [miss_add hS, Pi.sub_apply, ← h1]
    simp only [act, Fin.sum_univ_one]
    field_simp
  refine ⟨x, hsug, ?_, ?_⟩
  · rw [hlen, hlen, h2, abs_mul, mul_comm]
    refine mul_le_mul_of_nonneg_right ?_ (abs_nonneg _)
    have h3 : f⁻¹ ≤ lo⁻¹ := inv_anti₀ hlo hlof
    have h4 : 0 < f⁻¹ := inv_pos.2 hf0
    rw [abs_le]
    constructor <;> linarith
  · rw [hlen, ← h1, abs_mul, abs_mul, abs_of_pos hf0]
    exact mul_le_mul_of_nonneg_right (mul_le_mul_of_nonneg_right hfhi (abs_nonneg _)) (abs_nonneg _)

/-- Newton steps until the estimator has learned the size of the gradient, and then until the set point is met. -/
theorem signed_phase {S : Setup 1 1} (hS : S.Valid) {eigh : Eigh} (heigh : EighSpec eigh) {nullspace : Nullspace}
    (hnull : NullspaceSpec nullspace) {lstsq : Newton.Lstsq (Fin 1)} (hls : Newton.LstsqSpec lstsq) {μ : Val × Int} (hμ : μ.1 = none)
    {l L ε κ lo hi r : ℝ} (hl : 0 < l) (hL : L ≤ l) (hlo : 0 < lo) (hlo1 : lo ≤ 1) (hhi : 1 ≤ hi) (hg : S.slope 0 0 ≠ 0) (hpos : ∀ y ∈ S.seen 0, 0 < y ∧ y ≤ r)
    (hfine : ∀ tol, (S.row 0).tolerance = some tol → hi * |S.slope 0 0| * (1 / 10000000) ≤ tol) (N T : Nat) :
    ∀ (E : Fin 1 → Est 1) (q : Vec 1) (t : OneTuner (Est 1) 1), At S μ E q t → Signed S l L ε κ lo hi q (E 0) → ¬ SetPointsMet S q →
      3 * |κ| ≤ ((E 0).cov 0 0)⁻¹ + T * ((1 / 10000000) ^ 2 / r) →
      (∀ tol, (S.row 0).tolerance = some tol → (1 / 2) ^ (N + 1) * ((1 + lo⁻¹) ^ T * len (S.miss q)) < tol) →
      CompletesWithin S (kalmanI eigh nullspace) lstsq (3 * (T + N + 1)) ⟨t, volts q, 0, true, none⟩ := by
  have hone : ∀ k : Fin 1, k = 0 := fun k => Subsingleton.elim _ _
  have hlen : ∀ y : Fin 1 → ℝ, len y = |y 0| := fun y => by
    unfold len
    rw [Fin.sum_univ_one, Real.sqrt_sq_eq_abs]
  have hpos0 : ∀ k, ∀ y ∈ S.seen k, 0 < y := by
    intro k y hy
    obtain rfl := hone k
    exact (hpos y hy).1
  induction T with
  | zero =>
    intro E q t hAt h hnot hinfo htol
    obtain ⟨f, hf, hκ, -, -⟩ := h.factor
    have hc := h.positive
    have hf3 : |f - 1| ≤ 1 / 3 := by
      rw [hκ, abs_mul, abs_of_pos hc]
      simp only [Nat.cast_zero, zero_mul, add_zero] at hinfo
      have := mul_le_mul_of_nonneg_right hinfo hc.le
      rw [inv_mul_cancel₀ hc.ne'] at this
      linarith
    have hest : |(E 0).estimate 0 - S.slope 0 0| ≤ |S.slope 0 0| / 3 := by
      rw [hf, show f * S.slope 0 0 - S.slope 0 0 = (f - 1) * S.slope 0 0 by ring, abs_mul]
      nlinarith [abs_nonneg (S.slope 0 0)]
    have hg1 : 0 < |S.slope 0 0| := abs_pos.2 hg
    refine (bounded_phase (l := l) (l' := (E 0).cov 0 0) (ε := ε) (χ := fun _ => surprise (E 0) (S.slope 0)) (σ := |S.slope 0 0|)
      (ρ := |S.slope 0 0| / 3) hS one_ne_zero hμ heigh hnull hls hc (h.certain.trans hL) ?_ (by positivity) (by linarith) ?_ hpos0 N E q t hAt ?_ ?_ ?_).imp fun M hM => ⟨by omega, hM.2⟩
    · intro x
      rw [hlen, hlen, ← abs_mul]
      simp only [comb, Fin.sum_univ_one]
      rw [mul_comm]
    · rw [Fin.sum_univ_one, surprise_one, mul_div_cancel₀ _ hc.ne']
      exact sq_le_sq' (by linarith [neg_abs_le ((E 0).estimate 0 - S.slope 0 0)]) (le_trans (le_abs_self _) hest)
    · intro k
      obtain rfl := hone k
      exact ⟨h.learns, h.pos, h.value⟩
    · intro k v hv
      obtain rfl := hone k
      rw [Fin.sum_univ_one] at hv
      rw [variance_one, hv, mul_one]
    · intro k tol hk
      obtain rfl := hone k
      have h1 : |S.slope 0 0| / 3 / (|S.slope 0 0| - |S.slope 0 0| / 3) = 1 / 2 := by
        field_simp
        norm_num
      rw [h1]
      simpa using htol tol hk
  | succ T ih =>
    intro E q t hAt h hnot hinfo htol
    obtain ⟨x, hsug, hmiss, hlong⟩ := h.suggestion hS heigh hnull hls hl hL hlo hg hAt
    obtain ⟨t', hnext, hbase⟩ := suggestion (E' := E) (q' := q + x) hAt (by rw [hμ]; simp) hsug
    have hx : (q + x) 0 - q 0 = x 0 := by simp
    have hstep : 1 / 10000000 ≤ |(q + x) 0 - q 0| := by
      rw [hx]
      simp only [SetPointsMet, not_forall, not_lt] at hnot
      obtain ⟨k, tol, hk, hfar⟩ := hnot
      obtain rfl := hone k
      have h1 : hi * |S.slope 0 0| * (1 / 10000000) ≤ hi * |S.slope 0 0| * |x 0| := by
        refine (hfine tol hk).trans (hfar.trans ?_)
        rw [hlen] at hlong
        exact hlong
      exact le_of_mul_le_mul_left h1 (mul_pos (by linarith) (abs_pos.2 hg))
    have hup : ∀ k, ∀ y ∈ S.seen k, ∃ e', (kalmanI eigh nullspace).update (volts (q + x)) (some (S.scaled k (q + x))) (some y) (E k) = (e', .ok ()) ∧
        Signed S l L ε κ lo hi (q + x) e' ∧ ((E 0).cov 0 0)⁻¹ + (1 / 10000000) ^ 2 / r ≤ (e'.cov 0 0)⁻¹ := by
      intro k y hy
      obtain rfl := hone k
      obtain ⟨e', h1, h2, -, h3⟩ := h.update hS hlo1 hhi (q + x) (hpos y hy).1 eigh nullspace
      refine ⟨e', h1, h2, le_trans ?_ (h3 hstep)⟩
      have := div_le_div_of_nonneg_left (by positivity : (0 : ℝ) ≤ (1 / 10000000) ^ 2) (hpos y hy).1 (hpos y hy).2
      linarith
    have := cycle_or (q := q) hS.toSound hnext hbase (fun k y hy => by
      obtain ⟨e', he', -⟩ := hup k y hy
      exact ⟨e', he'⟩) (3 * (T + N + 1)) (fun y t'' hy hnot' hAt' => by
        obtain ⟨e', h1, h2, h3⟩ := hup 0 (y 0) (hy 0)
        refine ih _ _ _ hAt' ?_ hnot' ?_ ?_
        · rw [h1]
          exact h2
        · rw [h1]
          push_cast at hinfo
          linarith
        · intro tol hk
          refine lt_of_le_of_lt (mul_le_mul_of_nonneg_left ?_ (by positivity)) (htol tol hk)
          rw [pow_succ, mul_assoc]
          exact mul_le_mul_of_nonneg_left hmiss (by positivity))
    obtain ⟨M, hM, hc⟩ := this
    exact ⟨M, by omega, hc⟩

/-- The first Newton step, after which it is known that the set point was missed. -/
theorem signed_start {S : Setup 1 1} (hS : S.Valid) {eigh : Eigh} (heigh : EighSpec eigh) {nullspace : Nullspace}
    (hnull : NullspaceSpec nullspace) {lstsq : Newton.Lstsq (Fin 1)} (hls : Newton.LstsqSpec lstsq) {μ : Val × Int} (hμ : μ.1 = none)
    {l L ε κ lo hi r : ℝ} (hl : 0 < l) (hL : L ≤ l) (hlo : 0 < lo) (hlo1 : lo ≤ 1) (hhi : 1 ≤ hi) (hg : S.slope 0 0 ≠ 0) (hpos : ∀ y ∈ S.seen 0, 0 < y ∧ y ≤ r)
    (hfine : ∀ tol, (S.row 0).tolerance = some tol → hi * |S.slope 0 0| * (1 / 10000000) ≤ tol) (N T : Nat)
    (hT : 3 * |κ| ≤ T * ((1 / 10000000) ^ 2 / r)) {E : Fin 1 → Est 1} {q : Vec 1} {t : OneTuner (Est 1) 1} (hAt : At S μ E q t)
    (h : Signed S l L ε κ lo hi q (E 0))
    (htol : ∀ tol, (S.row 0).tolerance = some tol → (1 / 2) ^ (N + 1) * ((1 + lo⁻¹) ^ (T + 1) * len (S.miss q)) < tol) :
    CompletesWithin S (kalmanI eigh nullspace) lstsq (3 * (T + N + 2)) ⟨t, volts q, 0, true, none⟩ := by
  have hone : ∀ k : Fin 1, k = 0 := fun k => Subsingleton.elim _ _
  obtain ⟨x, hsug, hmiss, -⟩ := h.suggestion hS heigh hnull hls hl hL hlo hg hAt
  obtain ⟨t', hnext, hbase⟩ := suggestion (E' := E) (q' := q + x) hAt (by rw [hμ]; simp) hsug
  have hup : ∀ k, ∀ y ∈ S.seen k, ∃ e', (kalmanI eigh nullspace).update (volts (q + x)) (some (S.scaled k (q + x))) (some y) (E k) = (e', .ok ()) ∧
      Signed S l L ε κ lo hi (q + x) e' := by
    intro k y hy
    obtain rfl := hone k
    obtain ⟨e', h1, h2, -⟩ := h.update hS hlo1 hhi (q + x) (hpos y hy).1 eigh nullspace
    exact ⟨e', h1, h2⟩
  have := cycle_or (q := q) hS.toSound hnext hbase (fun k y hy => by
    obtain ⟨e', he', -⟩ := hup k y hy
    exact ⟨e', he'⟩) (3 * (T + N + 1)) (fun y t'' hy hnot' hAt' => by
      obtain ⟨e', h1, h2⟩ := hup 0 (y 0) (hy 0)
      refine signed_phase hS heigh hnull hls hμ hl hL hlo hlo1 hhi hg hpos hfine N T _ _ _ hAt' (by rw [h1]; exact h2) hnot' ?_ ?_
      · rw [h1]
        have := inv_pos.2 h2.positive
        linarith
      · intro tol hk
        refine lt_of_le_of_lt (mul_le_mul_of_nonneg_left ?_ (by positivity)) (htol tol hk)
        rw [pow_succ, mul_assoc]
        exact mul_le_mul_of_nonneg_left hmiss (by positivity))
  obtain ⟨M, hM, hc⟩ := this
  exact ⟨M, by omega, hc⟩

/-- Requested measurements until the variance is at most the limit. -/
theorem signed_requests {S : Setup 1 1} (hS : S.Valid) {eigh : Eigh} (heigh : EighSpec eigh) {nullspace : Nullspace}
    (hnull : NullspaceSpec nullspace) {lstsq : Newton.Lstsq (Fin 1)} (hls : Newton.LstsqSpec lstsq) {μ : Val × Int} (hμ : μ.1 = none)
    {l L ε κ lo hi r : ℝ} (hl : 0 < l) (hε : 1 / 10000000 ≤ |ε|) (hlo : 0 < lo) (hlo1 : lo ≤ 1) (hhi : 1 ≤ hi) (hg : S.slope 0 0 ≠ 0)
    (hpos : ∀ y ∈ S.seen 0, 0 < y ∧ y ≤ r)
    (hfine : ∀ tol, (S.row 0).tolerance = some tol → hi * |S.slope 0 0| * (1 / 10000000) ≤ tol) (N T : Nat)
    (hT : 3 * |κ| ≤ T * ((1 / 10000000) ^ 2 / r)) (R : Nat) :
    ∀ (E : Fin 1 → Est 1) (q : Vec 1) (t : OneTuner (Est 1) 1), At S μ E q t → Signed S l L ε κ lo hi q (E 0) →
      l⁻¹ ≤ ((E 0).cov 0 0)⁻¹ + R * ((1 / 10000000) ^ 2 / r) →
      (∀ tol, (S.row 0).tolerance = some tol →
        (1 / 2) ^ (N + 1) * ((1 + lo⁻¹) ^ (T + 1) * (len (S.miss q) + R * (|ε| * |S.slope 0 0|))) < tol) →
      CompletesWithin S (kalmanI eigh nullspace) lstsq (3 * (R + T + N + 2)) ⟨t, volts q, 0, true, none⟩ := by
  have hone : ∀ k : Fin 1, k = 0 := fun k => Subsingleton.elim _ _
  have hlen : ∀ y : Fin 1 → ℝ, len y = |y 0| := fun y => by
    unfold len
    rw [Fin.sum_univ_one, Real.sqrt_sq_eq_abs]
  have hdone : ∀ (R : Nat) (E : Fin 1 → Est 1) (q : Vec 1) (t : OneTuner (Est 1) 1), At S μ E q t → Signed S l L ε κ lo hi q (E 0) → (E 0).cov 0 0 ≤ l →
      (∀ tol, (S.row 0).tolerance = some tol →
        (1 / 2) ^ (N + 1) * ((1 + lo⁻¹) ^ (T + 1) * (len (S.miss q) + R * (|ε| * |S.slope 0 0|))) < tol) →
      CompletesWithin S (kalmanI eigh nullspace) lstsq (3 * (R + T + N + 2)) ⟨t, volts q, 0, true, none⟩ := by
    intro R E q t hAt h hc htol
    have h' : Signed S l l ε κ lo hi q (E 0) := ⟨h.static, h.psd, h.limit, h.eps, h.pos, h.value, h.positive, hc, h.factor⟩
    obtain ⟨M, hM, hc⟩ := signed_start hS heigh hnull hls hμ hl le_rfl hlo hlo1 hhi hg hpos hfine N T hT hAt h' fun tol hk =>
      lt_of_le_of_lt (mul_le_mul_of_nonneg_left (mul_le_mul_of_nonneg_left (le_add_of_nonneg_right (by positivity)) (by positivity)) (by positivity)) (htol tol hk)
    exact ⟨M, by omega, hc⟩
  induction R with
  | zero =>
    intro E q t hAt h hinfo htol
    refine hdone 0 E q t hAt h ?_ htol
    simp only [Nat.cast_zero, zero_mul, add_zero] at hinfo
    exact (inv_le_inv₀ hl h.positive).1 hinfo
  | succ R ih =>
    intro E q t hAt h hinfo htol
    by_cases hc : (E 0).cov 0 0 ≤ l
    · exact hdone (R + 1) E q t hAt h hc htol
    · have hL : Learning S l ε (fun _ => surprise (E 0) (S.slope 0)) q E := by
        intro k
        obtain rfl := hone k
        exact ⟨h.learns, h.pos, h.value⟩
      have hunsure : ¬ Sure l E := by
        intro hsure
        have := hsure 0 (fun _ => 1) (by simp)
        rw [variance_one] at this
        simp at this
        exact hc this
      obtain ⟨k, v, hv, -, hsug⟩ := unsure_suggestion (eigh := eigh) (nullspace := nullspace) (lstsq := lstsq) hS one_ne_zero heigh hl hAt hL hunsure
      obtain ⟨t', hnext, hbase⟩ := suggestion (E' := E) (q' := q + ε • v) hAt (by rw [hμ]; simp) hsug
      have hv1 : |v 0| = 1 := by
        rw [Fin.sum_univ_one] at hv
        rw [← Real.sqrt_sq_eq_abs, hv, Real.sqrt_one]
      have hstep : 1 / 10000000 ≤ |(q + ε • v) 0 - q 0| := by
        have : (q + ε • v) 0 - q 0 = ε * v 0 := by simp
        rw [this, abs_mul, hv1, mul_one]
        exact hε
      have hup : ∀ k, ∀ y ∈ S.seen k, ∃ e', (kalmanI eigh nullspace).update (volts (q + ε • v)) (some (S.scaled k (q + ε • v))) (some y) (E k) = (e', .ok ()) ∧
          Signed S l L ε κ lo hi (q + ε • v) e' ∧ ((E 0).cov 0 0)⁻¹ + (1 / 10000000) ^ 2 / r ≤ (e'.cov 0 0)⁻¹ := by
        intro k y hy
        obtain rfl := hone k
        obtain ⟨e', h1, h2, -, h3⟩ := h.update hS hlo1 hhi (q + ε • v) (hpos y hy).1 eigh nullspace
        refine ⟨e', h1, h2, le_trans ?_ (h3 hstep)⟩
        have := div_le_div_of_nonneg_left (by positivity : (0 : ℝ) ≤ (1 / 10000000) ^ 2) (hpos y hy).1 (hpos y hy).2
        linarith
      have := cycle_or (q := q) hS.toSound hnext hbase (fun k y hy => by
        obtain ⟨e', he', -⟩ := hup k y hy
        exact ⟨e', he'⟩) (3 * (R + T + N + 2)) (fun y t'' hy hnot' hAt' => by
          obtain ⟨e', h1, h2, h3⟩ := hup 0 (y 0) (hy 0)
          refine ih _ _ _ hAt' (by rw [h1]; exact h2) ?_ ?_
          · rw [h1]
            push_cast at hinfo
            linarith
          · intro tol hk
            refine lt_of_le_of_lt (mul_le_mul_of_nonneg_left (mul_le_mul_of_nonneg_left ?_ (by positivity)) (by positivity)) (htol tol hk)
            have h4 : S.miss (q + ε • v) 0 = S.miss q 0 - S.slope 0 0 * (ε * v 0) := by
              rw [miss_add hS, Pi.sub_apply]
              simp only [act, Fin.sum_univ_one, Pi.smul_apply, smul_eq_mul]
            have h5 : len (S.miss (q + ε • v)) ≤ len (S.miss q) + |ε| * |S.slope 0 0| := by
              rw [hlen, hlen, h4]
              have := abs_sub (S.miss q 0) (S.slope 0 0 * (ε * v 0))
              rw [abs_mul (S.slope 0 0), abs_mul ε, hv1, mul_one] at this
              linarith
            push_cast
            linarith)
      obtain ⟨M, hM, hc⟩ := this
      exact ⟨M, by omega, hc⟩

end Qtune.EndToEnd
