import Verif.EndToEnd.PropsSign

/-! # C214: one gate, an estimator that begins with any gradient -/

namespace Qtune.EndToEnd

open Qtune.Tuner Qtune.Gradient Qtune.Kalman Qtune.Autotuner Matrix

/-- From the state `s` the tuning is completed at voltages that meet the set points after some calls of `iterate`, or after some calls the estimate is exactly 0 with a variance of at most `l`,
and from then on the tuning is never complete. -/
def EndsOrBlind (S : Setup 1 1) (I : Newton.EstI (Est 1) (Fin 1)) (lstsq : Newton.Lstsq (Fin 1)) (l : ℝ)
    (s : Autotuner.State (OneTuner (Est 1) 1) (Volt (Fin 1)) (Volt (Fin 1))) : Prop :=
  (∃ K, CompletesWithin S I lstsq K s) ∨
    ∃ N s' e, iterates (hierarchy I lstsq S.outs) N s = .ok s' ∧ s'.tuners.solver.ests = [e] ∧ e.estimate 0 = 0 ∧ e.cov 0 0 ≤ l ∧
      NeverComplete (hierarchy I lstsq S.outs) s'

theorem EndsOrBlind.after {S : Setup 1 1} {I : Newton.EstI (Est 1) (Fin 1)} {lstsq : Newton.Lstsq (Fin 1)} {l : ℝ}
    {s s₁ : Autotuner.State (OneTuner (Est 1) 1) (Volt (Fin 1)) (Volt (Fin 1))} {M : Nat} (h : iterates (hierarchy I lstsq S.outs) M s = .ok s₁)
    (h₁ : EndsOrBlind S I lstsq l s₁) : EndsOrBlind S I lstsq l s := by
  rcases h₁ with ⟨K, N, hN, s', hs', hc⟩ | ⟨N, s', e, hs', hc⟩
  · refine .inl ⟨M + K, M + N, by omega, s', ?_, hc⟩
    rw [iterates_add _ M N _ _ h]
    exact hs'
  · refine .inr ⟨M + N, s', e, ?_, hc⟩
    rw [iterates_add _ M N _ _ h]
    exact hs'

/-- One cycle. -/
theorem cycle_any {S : Setup 1 1} (hS : S.Sound) {μ : Val × Int} {I : Newton.EstI (Est 1) (Fin 1)} {lstsq : Newton.Lstsq (Fin 1)} {l : ℝ}
    {t t' : OneTuner (Est 1) 1} {E' : Fin 1 → Est 1} {q q' : Vec 1} (hnext : nextVoltages (Newton.solver I lstsq) [] t = (t', .ok (volts q')))
    (hbase : Base S μ E' t')
    (hupd : ∀ k, ∀ y ∈ S.seen k, ∃ e', I.update (volts q') (some (S.scaled k q')) (some y) (E' k) = (e', .ok ()))
    (hcont : ∀ (y : Fin 1 → ℝ) (t'' : OneTuner (Est 1) 1), (∀ k, y k ∈ S.seen k) → ¬ SetPointsMet S q' →
      At S μ (fun k => (I.update (volts q') (some (S.scaled k q')) (some (y k)) (E' k)).1) q' t'' →
      EndsOrBlind S I lstsq l ⟨t'', volts q', 0, true, none⟩) :
    EndsOrBlind S I lstsq l ⟨t, volts q, 0, true, none⟩ := by
  obtain ⟨y, t'', b, hev, hy, hAt, hb⟩ := evaluation hS (I := I) (lstsq := lstsq) hbase q' hupd
  have hrun := cycle (q := q) hnext hev
  cases b with
  | true => exact .inl ⟨3, 3, le_rfl, _, hrun, rfl, q', rfl, hb.1 rfl⟩
  | false =>
    exact (hcont y t'' hy (fun hm => by
      have := hb.2 hm
      cases this) hAt).after hrun

/-- The Newton step for an estimate that is not 0. -/
theorem Signed.nonzero_suggestion {S : Setup 1 1} (hS : S.Valid) {eigh : Eigh} (heigh : EighSpec eigh) {nullspace : Nullspace}
    (hnull : NullspaceSpec nullspace) {lstsq : Newton.Lstsq (Fin 1)} (hls : Newton.LstsqSpec lstsq) {μ : Val × Int} {l ε κ lo hi : ℝ} (hl : 0 < l)
    {E : Fin 1 → Est 1} {q : Vec 1} {t : OneTuner (Est 1) 1} (hAt : At S μ E q t) (h : Signed S l l ε κ lo hi q (E 0)) (hne : (E 0).estimate 0 ≠ 0) :
    ∃ x : Vec 1, Newton.suggest (kalmanI eigh nullspace) lstsq [] t.solver =
        ({ t.solver with ests := List.ofFn E }, .ok fun i => some (some ((q + x) i))) ∧ S.miss q 0 = (E 0).estimate 0 * x 0 := by
  have hone : ∀ k : Fin 1, k = 0 := fun k => Subsingleton.elim _ _
  have hlen : ∀ y : Fin 1 → ℝ, len y = |y 0| := fun y => by
    unfold len
    rw [Fin.sum_univ_one, Real.sqrt_sq_eq_abs]
  obtain ⟨x, hsug, hxG, -⟩ := known_suggestion hS.toSound (I := kalmanI eigh nullspace) hls hAt (G := fun k => (E k).estimate) (fun k tj => by
    rw [hone k]
    exact certain_silent (g := (E 0).estimate) hl
      ⟨h.static, rfl, h.psd, h.limit, fun v hv => by
        rw [Fin.sum_univ_one] at hv
        rw [variance_one, hv, mul_one]
        exact h.certain⟩ ⟨q, h.pos, h.value⟩ heigh hnull hS.gates_nodup one_ne_zero tj)
    (fun k => rfl) (abs_pos.2 hne) (fun x => by
      rw [hlen, hlen, ← abs_mul]
      simp only [comb, Fin.sum_univ_one]
      rw [mul_comm])
  refine ⟨x, hsug, ?_⟩
  rw [← hxG]
  simp only [act, Fin.sum_univ_one]

/-- Newton steps: the estimate grows until it has the right sign, if it does not meet 0. -/
theorem any_phase {S : Setup 1 1} (hS : S.Valid) {eigh : Eigh} (heigh : EighSpec eigh) {nullspace : Nullspace}
    (hnull : NullspaceSpec nullspace) {lstsq : Newton.Lstsq (Fin 1)} (hls : Newton.LstsqSpec lstsq) {μ : Val × Int} (hμ : μ.1 = none)
    {l ε κ lo hi B r : ℝ} (hl : 0 < l) (hlo1 : lo ≤ 1) (hhi : 1 ≤ hi) (hloB : -B ≤ lo) (hhiB : hi ≤ B) (hg : S.slope 0 0 ≠ 0) (hpos : ∀ y ∈ S.seen 0, 0 < y ∧ y ≤ r)
    (hfine : ∀ tol, (S.row 0).tolerance = some tol → B * |S.slope 0 0| * (1 / 10000000) ≤ tol) (T : Nat) :
    ∀ (E : Fin 1 → Est 1) (q : Vec 1) (t : OneTuner (Est 1) 1), At S μ E q t → Signed S l l ε κ lo hi q (E 0) → ¬ SetPointsMet S q →
      3 * |κ| ≤ ((E 0).cov 0 0)⁻¹ + T * ((1 / 10000000) ^ 2 / r) →
      EndsOrBlind S (kalmanI eigh nullspace) lstsq l ⟨t, volts q, 0, true, none⟩ := by
  have hone : ∀ k : Fin 1, k = 0 := fun k => Subsingleton.elim _ _
  have hright : ∀ (T : Nat) (E : Fin 1 → Est 1) (q : Vec 1) (t : OneTuner (Est 1) 1), At S μ E q t → Signed S l l ε κ lo hi q (E 0) → ¬ SetPointsMet S q →
      3 * |κ| ≤ ((E 0).cov 0 0)⁻¹ + T * ((1 / 10000000) ^ 2 / r) → ∀ f, 0 < f → (E 0).estimate 0 = f * S.slope 0 0 →
      EndsOrBlind S (kalmanI eigh nullspace) lstsq l ⟨t, volts q, 0, true, none⟩ := by
    intro T E q t hAt h hnot hinfo f hf0 hf
    obtain ⟨f', hf', hκ, -, hfhi⟩ := h.factor
    obtain rfl : f' = f := mul_right_cancel₀ hg (hf'.symm.trans hf)
    have h' : Signed S l l ε κ (min 1 f') hi q (E 0) :=
      ⟨h.static, h.psd, h.limit, h.eps, h.pos, h.value, h.positive, h.certain, f', hf, hκ, min_le_right _ _, hfhi⟩
    obtain ⟨N, hN⟩ : ∃ N : ℕ, ∀ tol, (S.row 0).tolerance = some tol →
        (1 / 2) ^ (N + 1) * ((1 + (min 1 f')⁻¹) ^ T * len (S.miss q)) < tol := by
      cases htol : (S.row 0).tolerance with
      | none => exact ⟨0, by simp⟩
      | some tol =>
        have h1 : Filter.Tendsto (fun N : ℕ => (1 / 2 : ℝ) ^ N) Filter.atTop (nhds 0) := tendsto_pow_atTop_nhds_zero_of_lt_one (by norm_num) (by norm_num)
        have h2 := ((Filter.tendsto_add_atTop_iff_nat 1).2 h1).mul_const ((1 + (min 1 f')⁻¹) ^ T * len (S.miss q))
        rw [zero_mul] at h2
        obtain ⟨N, hN⟩ := (h2.eventually (gt_mem_nhds (hS.tolerance 0 tol htol))).exists
        refine ⟨N, fun tol' h => ?_⟩
        cases h
        exact hN
    refine .inl ⟨_, signed_phase hS heigh hnull hls hμ hl le_rfl (lt_min one_pos hf0) (min_le_left _ _) hhi hg hpos (fun tol hk => le_trans ?_ (hfine tol hk)) N T E q t hAt h' hnot hinfo hN⟩
    gcongr
  induction T with
  | zero =>
    intro E q t hAt h hnot hinfo
    obtain ⟨f, hf, hκ, -, -⟩ := h.factor
    have hc := h.positive
    have hf3 : |f - 1| ≤ 1 / 3 := by
      rw [hκ, abs_mul, abs_of_pos hc]
      have hinfo' := hinfo
      simp only [Nat.cast_zero, zero_mul, add_zero] at hinfo'
      have := mul_le_mul_of_nonneg_right hinfo' hc.le
      rw [inv_mul_cancel₀ hc.ne'] at this
      linarith
    exact hright 0 E q t hAt h hnot hinfo f (by linarith [neg_abs_le (f - 1)]) hf
  | succ T ih =>
    intro E q t hAt h hnot hinfo
    obtain ⟨f, hf, hκ, hlof, hfhi⟩ := h.factor
    by_cases hf0 : 0 < f
    · exact hright (T + 1) E q t hAt h hnot hinfo f hf0 hf
    by_cases hz : (E 0).estimate 0 = 0
    · refine .inr ⟨0, _, E 0, rfl, ?_, hz, h.certain, fun N =>
        blind_forever hS.toSound heigh hnull hls hμ hl hnot N E t hAt ⟨h.static, h.psd, h.limit, h.certain, h.pos, h.value, hz⟩⟩
      have := hAt.ests
      simpa using this
    obtain ⟨x, hsug, hlong⟩ := h.nonzero_suggestion hS heigh hnull hls hl hAt hz
    obtain ⟨t', hnext, hbase⟩ := suggestion (E' := E) (q' := q + x) hAt (by rw [hμ]; simp) hsug
    have hstep : 1 / 10000000 ≤ |(q + x) 0 - q 0| := by
      have hx : (q + x) 0 - q 0 = x 0 := by simp
      rw [hx]
      simp only [SetPointsMet, not_forall, not_lt] at hnot
      obtain ⟨k, tol, hk, hfar⟩ := hnot
      obtain rfl := hone k
      have hfB : |f| ≤ B := abs_le.2 ⟨by linarith, by linarith⟩
      have h1 : B * |S.slope 0 0| * (1 / 10000000) ≤ B * |S.slope 0 0| * |x 0| := by
        refine (hfine tol hk).trans (hfar.trans (le_trans (le_of_eq (congrArg abs hlong)) ?_))
        rw [hf, abs_mul, abs_mul]
        gcongr
      exact le_of_mul_le_mul_left h1 (mul_pos (by linarith) (abs_pos.2 hg))
    have hup : ∀ k, ∀ y ∈ S.seen k, ∃ e', (kalmanI eigh nullspace).update (volts (q + x)) (some (S.scaled k (q + x))) (some y) (E k) = (e', .ok ()) ∧
        Signed S l l ε κ lo hi (q + x) e' ∧ ((E 0).cov 0 0)⁻¹ + (1 / 10000000) ^ 2 / r ≤ (e'.cov 0 0)⁻¹ := by
      intro k y hy
      obtain rfl := hone k
      obtain ⟨e', h1, h2, -, h3⟩ := h.update hS hlo1 hhi (q + x) (hpos y hy).1 eigh nullspace
      refine ⟨e', h1, h2, le_trans ?_ (h3 hstep)⟩
      have := div_le_div_of_nonneg_left (by positivity : (0 : ℝ) ≤ (1 / 10000000) ^ 2) (hpos y hy).1 (hpos y hy).2
      linarith
    refine cycle_any (q := q) hS.toSound hnext hbase (fun k y hy => by
      obtain ⟨e', he', -⟩ := hup k y hy
      exact ⟨e', he'⟩) (fun y t'' hy hnot' hAt' => ?_)
    obtain ⟨e', h1, h2, h3⟩ := hup 0 (y 0) (hy 0)
    refine ih _ _ _ hAt' (by rw [h1]; exact h2) hnot' ?_
    rw [h1]
    push_cast at hinfo
    linarith

/-- Requested measurements until the variance is at most the limit. -/
theorem any_requests {S : Setup 1 1} (hS : S.Valid) {eigh : Eigh} (heigh : EighSpec eigh) {nullspace : Nullspace}
    (hnull : NullspaceSpec nullspace) {lstsq : Newton.Lstsq (Fin 1)} (hls : Newton.LstsqSpec lstsq) {μ : Val × Int} (hμ : μ.1 = none)
    {l L ε κ lo hi B r : ℝ} (hl : 0 < l) (hε : 1 / 10000000 ≤ |ε|) (hlo1 : lo ≤ 1) (hhi : 1 ≤ hi) (hloB : -B ≤ lo) (hhiB : hi ≤ B) (hg : S.slope 0 0 ≠ 0)
    (hpos : ∀ y ∈ S.seen 0, 0 < y ∧ y ≤ r) (hfine : ∀ tol, (S.row 0).tolerance = some tol → B * |S.slope 0 0| * (1 / 10000000) ≤ tol) (T : Nat)
    (hT : 3 * |κ| ≤ T * ((1 / 10000000) ^ 2 / r)) (R : Nat) :
    ∀ (E : Fin 1 → Est 1) (q : Vec 1) (t : OneTuner (Est 1) 1), At S μ E q t → Signed S l L ε κ lo hi q (E 0) → ¬ SetPointsMet S q →
      l⁻¹ ≤ ((E 0).cov 0 0)⁻¹ + R * ((1 / 10000000) ^ 2 / r) →
      EndsOrBlind S (kalmanI eigh nullspace) lstsq l ⟨t, volts q, 0, true, none⟩ := by
  have hone : ∀ k : Fin 1, k = 0 := fun k => Subsingleton.elim _ _
  have hdone : ∀ (E : Fin 1 → Est 1) (q : Vec 1) (t : OneTuner (Est 1) 1), At S μ E q t → Signed S l L ε κ lo hi q (E 0) → ¬ SetPointsMet S q → (E 0).cov 0 0 ≤ l →
      EndsOrBlind S (kalmanI eigh nullspace) lstsq l ⟨t, volts q, 0, true, none⟩ := by
    intro E q t hAt h hnot hc
    refine any_phase hS heigh hnull hls hμ hl hlo1 hhi hloB hhiB hg hpos hfine T E q t hAt
      (κ := κ) ⟨h.static, h.psd, h.limit, h.eps, h.pos, h.value, h.positive, hc, h.factor⟩ hnot ?_
    have := inv_pos.2 h.positive
    linarith
  induction R with
  | zero =>
    intro E q t hAt h hnot hinfo
    refine hdone E q t hAt h hnot ?_
    simp only [Nat.cast_zero, zero_mul, add_zero] at hinfo
    exact (inv_le_inv₀ hl h.positive).1 hinfo
  | succ R ih =>
    intro E q t hAt h hnot hinfo
    by_cases hc : (E 0).cov 0 0 ≤ l
    · exact hdone E q t hAt h hnot hc
    · have hL : Learning S l ε (fun _ => surprise (E 0) (S.slope 0)) q E := by
        intro k
        obtain rfl := hone k
        exact ⟨h.learns, h.pos, h.value⟩
      have hunsure : ¬ Sure l E := by
        intro hsure
        have := hsure 0 (fun _ => 1) (by simp)
        rw [variance_one] at this
        simp at this
        exact hc this
      obtain ⟨k, v, hv, -, hsug⟩ := unsure_suggestion (eigh := eigh) (nullspace := nullspace) (lstsq := lstsq) hS one_ne_zero heigh hl hAt hL hunsure
      obtain ⟨t', hnext, hbase⟩ := suggestion (E' := E) (q' := q + ε • v) hAt (by rw [hμ]; simp) hsug
      have hstep : 1 / 10000000 ≤ |(q + ε • v) 0 - q 0| := by
        have hv1 : |v 0| = 1 := by
          rw [Fin.sum_univ_one] at hv
          rw [← Real.sqrt_sq_eq_abs, hv, Real.sqrt_one]
        have : (q + ε • v) 0 - q 0 = ε * v 0 := by simp
        rw [this, abs_mul, hv1, mul_one]
        exact hε
      have hup : ∀ k, ∀ y ∈ S.seen k, ∃ e', (kalmanI eigh nullspace).update (volts (q + ε • v)) (some (S.scaled k (q + ε • v))) (some y) (E k) = (e', .ok ()) ∧
          Signed S l L ε κ lo hi (q + ε • v) e' ∧ ((E 0).cov 0 0)⁻¹ + (1 / 10000000) ^ 2 / r ≤ (e'.cov 0 0)⁻¹ := by
        intro k y hy
        obtain rfl := hone k
        obtain ⟨e', h1, h2, -, h3⟩ := h.update hS hlo1 hhi (q + ε • v) (hpos y hy).1 eigh nullspace
        refine ⟨e', h1, h2, le_trans ?_ (h3 hstep)⟩
        have := div_le_div_of_nonneg_left (by positivity : (0 : ℝ) ≤ (1 / 10000000) ^ 2) (hpos y hy).1 (hpos y hy).2
        linarith
      refine cycle_any (q := q) hS.toSound hnext hbase (fun k y hy => by
        obtain ⟨e', he', -⟩ := hup k y hy
        exact ⟨e', he'⟩) (fun y t'' hy hnot' hAt' => ?_)
      obtain ⟨e', h1, h2, h3⟩ := hup 0 (y 0) (hy 0)
      refine ih _ _ _ hAt' (by rw [h1]; exact h2) hnot' ?_
      rw [h1]
      push_cast at hinfo
      linarith

/-- **C214** for every initial gradient, also of the wrong sign or 0: the tuning is completed, or the estimate is exactly 0 at some time with a variance that is at most the limit.  Only
then the tuning does not end.  The tolerance must be at least what a step of `1e-7` changes with the estimated and with the true gradient. -/
theorem any_gradient_ends_or_is_blind {S : Setup 1 1} (hS : S.Valid) {eigh : Eigh} (heigh : EighSpec eigh) {nullspace : Nullspace}
    (hnull : NullspaceSpec nullspace) {lstsq : Newton.Lstsq (Fin 1)} (hls : Newton.LstsqSpec lstsq) (c : Vec 1) {l ε r : ℝ} (hl : 0 < l)
    (hε : 1 / 10000000 ≤ |ε|) (hvar : ∀ y ∈ S.variances, 0 < y ∧ y / (S.scale 0 * S.scale 0) ≤ r) {e : Est 1} {t : OneTuner (Est 1) 1}
    (ht : LearningInitial S l ε (fun _ => e) t) (hgrad : S.grad 0 0 ≠ 0)
    (hfine : ∀ tol, (S.row 0).tolerance = some tol → max |e.estimate 0| |S.grad 0 0 / S.scale 0| * (1 / 10000000) ≤ tol) :
    (∃ K, CompletesWithin S (kalmanI eigh nullspace) lstsq K (fresh t (volts c))) ∨
      ∃ N s' e', iterates (hierarchy (kalmanI eigh nullspace) lstsq S.outs) N (fresh t (volts c)) = .ok s' ∧ s'.tuners.solver.ests = [e'] ∧
        e'.estimate 0 = 0 ∧ e'.cov 0 0 ≤ l ∧ NeverComplete (hierarchy (kalmanI eigh nullspace) lstsq S.outs) s' := by
  have hone : ∀ k : Fin 1, k = 0 := fun k => Subsingleton.elim _ _
  have hpos : ∀ y ∈ S.seen 0, 0 < y ∧ y ≤ r := by
    rintro y ⟨v, hv, rfl⟩
    exact ⟨div_pos (hvar v hv).1 (mul_self_pos.2 (hS.scale 0).2), (hvar v hv).2⟩
  have hr : 0 < r := by
    obtain ⟨y, hy, -⟩ := hS.evaluators c
    have := hpos _ ⟨y 0, hy 0, rfl⟩
    linarith
  have hgs : S.grad 0 0 / S.scale 0 = S.slope 0 0 := rfl
  have hg0 : S.slope 0 0 ≠ 0 := div_ne_zero hgrad (hS.scale 0).2
  rw [hgs] at hfine
  set f := e.estimate 0 / S.slope 0 0 with hf
  have hfg : e.estimate 0 = f * S.slope 0 0 := by rw [hf, div_mul_cancel₀ _ hg0]
  have hc : 0 < e.cov 0 0 := (ht.covariance 0).diag_pos
  have hpsd : e.filter.P.PosSemidef := by
    rw [cov_submatrix']
    exact (ht.covariance 0).posSemidef.submatrix _
  have hfac : ∃ f', e.estimate 0 = f' * S.slope 0 0 ∧ f' - 1 = (f - 1) / e.cov 0 0 * e.cov 0 0 ∧ min 1 f ≤ f' ∧ f' ≤ max 1 f :=
    ⟨f, hfg, (div_mul_cancel₀ _ hc.ne').symm, min_le_right _ _, le_max_right _ _⟩
  have hfine' : ∀ tol, (S.row 0).tolerance = some tol → max 1 |f| * |S.slope 0 0| * (1 / 10000000) ≤ tol := by
    intro tol hk
    refine le_trans (le_of_eq ?_) (hfine tol hk)
    rw [max_mul_of_nonneg _ _ (abs_nonneg _), one_mul, hfg, abs_mul, max_comm]
  have hlB : -max 1 |f| ≤ min 1 f := by
    refine le_min ?_ ?_
    · linarith [le_max_left 1 |f|]
    · linarith [le_max_right 1 |f|, neg_abs_le f]
  have hhB : max 1 f ≤ max 1 |f| := max_le_max le_rfl (le_abs_self f)
  obtain ⟨T, hT⟩ := exists_nat_ge (3 * |(f - 1) / e.cov 0 0| / ((1 / 10000000) ^ 2 / r))
  rw [div_le_iff₀ (by positivity)] at hT
  obtain ⟨R, hR⟩ := exists_nat_ge (l⁻¹ / ((1 / 10000000) ^ 2 / r))
  rw [div_le_iff₀ (by positivity)] at hR
  have hup : ∀ k, ∀ y ∈ S.seen k, ∃ e', (kalmanI eigh nullspace).update (volts c) (some (S.scaled k c)) (some y) e = (e', .ok ()) ∧
      Signed S l (e.cov 0 0) ε ((f - 1) / e.cov 0 0) (min 1 f) (max 1 f) c e' := by
    intro k y hy
    obtain rfl := hone k
    rcases ht.value 0 with hv | ⟨p, hp, hv⟩
    · refine ⟨{ e with value := some (S.scaled 0 c), pos := volts c }, ?_, ⟨ht.static 0, hpsd, ht.limit 0, ht.eps 0, rfl, rfl, hc, le_rfl, hfac⟩⟩
      have hv' : e.value = none := hv
      simp [kalmanI, Est.update, hv']
    · have h : Signed S l (e.cov 0 0) ε ((f - 1) / e.cov 0 0) (min 1 f) (max 1 f) p e :=
        ⟨ht.static 0, hpsd, ht.limit 0, ht.eps 0, hp, hv, hc, le_rfl, hfac⟩
      obtain ⟨e', h1, h2, -⟩ := h.update hS (min_le_left _ _) (le_max_left _ _) c (hpos y hy).1 eigh nullspace
      exact ⟨e', h1, h2⟩
  obtain ⟨y, t', b, hev, hy, hAt, hb⟩ := evaluation (μ := (none, t.maxNumber)) (lstsq := lstsq) (I := kalmanI eigh nullspace) (E := fun _ => e) hS.toSound
    ⟨ht.target, ht.ests, ht.gates, ht.index, ht.maxStep, rfl, ht.queued, ht.lastIndex⟩ c (fun k y hy => by
      obtain ⟨e', he', -⟩ := hup k y hy
      exact ⟨e', he'⟩)
  have h1 : iterates (hierarchy (kalmanI eigh nullspace) lstsq S.outs) 1 (fresh t (volts c)) = .ok ⟨t', volts c, if b then 1 else 0, !b, none⟩ := by
    have : (iterate (hierarchy (kalmanI eigh nullspace) lstsq S.outs) (.ok ()) (fresh t (volts c))).1 = ⟨t', volts c, if b then 1 else 0, !b, none⟩ ∧
        (iterate (hierarchy (kalmanI eigh nullspace) lstsq S.outs) (.ok ()) (fresh t (volts c))).2.2 = .ok () := by
      cases b <;> simp [iterate, fresh, hierarchy, isComplete, finish, hev]
    unfold iterates
    rcases hi : iterate (hierarchy (kalmanI eigh nullspace) lstsq S.outs) (.ok ()) (fresh t (volts c)) with ⟨s₁, ev, r⟩
    rw [hi] at this
    simp only at this
    obtain ⟨rfl, rfl⟩ := this
    rfl
  cases b with
  | true => exact .inl ⟨1, 1, le_rfl, _, h1, rfl, c, rfl, hb.1 rfl⟩
  | false =>
    obtain ⟨e', he', hE⟩ := hup 0 (y 0) (hy 0)
    refine EndsOrBlind.after h1 (any_requests hS heigh hnull hls rfl hl hε (min_le_left _ _) (le_max_left _ _) hlB hhB hg0 hpos hfine' T hT R _ c t' hAt
      (by rw [he']; exact hE) (fun hm => by
        have := hb.2 hm
        cases this) ?_)
    rw [he']
    have := inv_pos.2 hE.positive
    linarith

/-- **C214**, refuted for the wrong sign.  If the estimator begins with the negative of the gradient and with a variance `P` of at most the limit, the first Newton step doubles the distance to
the set point.  If the distance at the start is such that the filter weighs this step as much as what it knew, it concludes that the gate does nothing, and the tuning never ends. -/
theorem wrong_sign_refuted {S : Setup 1 1} (hS : S.Valid) {eigh : Eigh} (heigh : EighSpec eigh) {nullspace : Nullspace} (hnull : NullspaceSpec nullspace)
    {lstsq : Newton.Lstsq (Fin 1)} (hls : Newton.LstsqSpec lstsq) (c : Vec 1) {l ε r : ℝ} (hl : 0 < l) (hr : 0 < r)
    (hvar : ∀ y ∈ S.variances, y / (S.scale 0 * S.scale 0) = r) {e : Est 1} {t : OneTuner (Est 1) 1} (ht : LearningInitial S l ε (fun _ => e) t)
    (hfirst : e.value = none) (hgrad : S.grad 0 0 ≠ 0) (hwrong : e.estimate 0 = -(S.grad 0 0 / S.scale 0)) (hsure : e.cov 0 0 ≤ l)
    (hstart : e.cov 0 0 * (S.desired 0 - S.response 0 c / S.scale 0) ^ 2 = r * (S.grad 0 0 / S.scale 0) ^ 2)
    (hlong : (1 / 10000000) ^ 2 * e.cov 0 0 ≤ r) (hmiss : ¬ SetPointsMet S c) :
    NeverComplete (hierarchy (kalmanI eigh nullspace) lstsq S.outs) (fresh t (volts c)) := by
  intro N
  have hone : ∀ k : Fin 1, k = 0 := fun k => Subsingleton.elim _ _
  have hseen : ∀ y ∈ S.seen 0, y = r := by
    rintro y ⟨v, hv, rfl⟩
    exact hvar v hv
  have hgs : S.grad 0 0 / S.scale 0 = S.slope 0 0 := rfl
  have hg0 : S.slope 0 0 ≠ 0 := div_ne_zero hgrad (hS.scale 0).2
  rw [hgs] at hwrong hstart
  have hms : S.desired 0 - S.response 0 c / S.scale 0 = S.miss c 0 := rfl
  rw [hms] at hstart
  have hc : 0 < e.cov 0 0 := (ht.covariance 0).diag_pos
  have hpsd : e.filter.P.PosSemidef := by
    rw [cov_submatrix']
    exact (ht.covariance 0).posSemidef.submatrix _
  have hupd : ∀ y : ℝ, (kalmanI eigh nullspace).update (volts c) (some (S.scaled 0 c)) (some y) e =
      ({ e with value := some (S.scaled 0 c), pos := volts c }, .ok ()) := fun y => by
    simp [kalmanI, Est.update, hfirst]
  obtain ⟨y, t', b, hev, -, hAt, hb⟩ := evaluation (μ := (none, t.maxNumber)) (lstsq := lstsq) (I := kalmanI eigh nullspace) (E := fun _ => e) hS.toSound
    ⟨ht.target, ht.ests, ht.gates, ht.index, ht.maxStep, rfl, ht.queued, ht.lastIndex⟩ c (fun k y _ => by
      rw [hone k]
      exact ⟨_, hupd y⟩)
  cases b with
  | true => exact absurd (hb.1 rfl) hmiss
  | false =>
  have h1 : iterates (hierarchy (kalmanI eigh nullspace) lstsq S.outs) 1 (fresh t (volts c)) = .ok ⟨t', volts c, 0, true, none⟩ := by
    have : (iterate (hierarchy (kalmanI eigh nullspace) lstsq S.outs) (.ok ()) (fresh t (volts c))).1 = ⟨t', volts c, 0, true, none⟩ ∧
        (iterate (hierarchy (kalmanI eigh nullspace) lstsq S.outs) (.ok ()) (fresh t (volts c))).2.2 = .ok () := by
      simp [iterate, fresh, hierarchy, isComplete, finish, hev]
    unfold iterates
    rcases hi : iterate (hierarchy (kalmanI eigh nullspace) lstsq S.outs) (.ok ()) (fresh t (volts c)) with ⟨s₁, ev, r⟩
    rw [hi] at this
    simp only at this
    obtain ⟨rfl, rfl⟩ := this
    rfl
  cases N with
  | zero => exact ⟨_, rfl, rfl⟩
  | succ N =>
  rw [Nat.add_comm, iterates_add _ 1 N _ _ h1]
  set e₁ : Est 1 := { e with value := some (S.scaled 0 c), pos := volts c } with he₁
  have hAt₁ : At S (none, t.maxNumber) (fun _ => e₁) c t' := by
    have : (fun k : Fin 1 => ((kalmanI eigh nullspace).update (volts c) (some (S.scaled k c)) (some (y k)) e).1) = fun _ => e₁ := by
      funext k
      rw [hone k, hupd]
    rw [this] at hAt
    exact hAt
  have hest : e₁.estimate 0 = -S.slope 0 0 := hwrong
  have hcov : e₁.cov 0 0 = e.cov 0 0 := rfl
  have hsig : Signed S l l ε (-2 / e.cov 0 0) (-1) 1 c e₁ :=
    ⟨ht.static 0, hpsd, ht.limit 0, ht.eps 0, rfl, rfl, hc, hsure, -1, by rw [hest]; ring, by rw [hcov, div_mul_cancel₀ _ hc.ne']; norm_num, le_rfl, by norm_num⟩
  obtain ⟨x, hsug, hx⟩ := Signed.nonzero_suggestion hS heigh hnull hls hl hAt₁ hsig (by rw [hest]; exact neg_ne_zero.2 hg0)
  obtain ⟨t₂, hnext, hbase⟩ := suggestion (E' := fun _ => e₁) (q' := c + x) hAt₁ (by simp) hsug
  rw [hest] at hx
  have hx2 : e.cov 0 0 * x 0 ^ 2 = r := by
    rw [hx] at hstart
    have : S.slope 0 0 ^ 2 * (e.cov 0 0 * x 0 ^ 2) = S.slope 0 0 ^ 2 * r := by linarith
    exact mul_left_cancel₀ (pow_ne_zero 2 hg0) this
  have hxx : (c + x) 0 - c 0 = x 0 := by simp
  have hstep : 1 / 10000000 ≤ |(c + x) 0 - c 0| := by
    rw [hxx]
    have h2 : (1 / 10000000 : ℝ) ^ 2 ≤ x 0 ^ 2 := by
      rw [← hx2, mul_comm] at hlong
      exact le_of_mul_le_mul_left hlong hc
    have h3 := sq_le_sq.1 h2
    rwa [abs_of_pos (by norm_num : (0 : ℝ) < 1 / 10000000)] at h3
  obtain ⟨b₀, hb₀⟩ := Setup.scaled_affine hS.affine 0
  have hb' : ∀ v, S.scaled 0 v = b₀ + S.slope 0 0 * v 0 := by
    intro v
    rw [hb₀ v, Fin.sum_univ_one]
    rfl
  have hblind : ∃ e₂, (kalmanI eigh nullspace).update (volts (c + x)) (some (S.scaled 0 (c + x))) (some r) e₁ = (e₂, .ok ()) ∧ Blind S l (c + x) e₂ := by
    obtain ⟨e₂, θ, hup, hs, hP, hm, -, hp, hv, hθ0, hθ1, hcov₂, hest₂, hθ⟩ := one_gate_update (e := e₁) hsig.static hsig.psd rfl (by rw [← hb']) (c + x) hr
    refine ⟨e₂, by rw [hb']; exact hup, hs, hP, hm.trans hsig.limit, ?_, hp, by rw [hb', hv], ?_⟩
    · rw [hcov₂, hcov]
      nlinarith
    · have h5 : θ = 1 / 2 := by
        rw [hθ hstep, hxx, hcov, hx2]
        field_simp
        norm_num
      rw [hest, h5] at hest₂
      linarith
  obtain ⟨e₂, hup₂, hE₂⟩ := hblind
  obtain ⟨y₂, t₃, b₂, hev₂, hy₂, hAt₂, hb₂⟩ := evaluation hS.toSound (lstsq := lstsq) (I := kalmanI eigh nullspace) hbase (c + x) (fun k y hy => by
    obtain rfl := hone k
    rw [hseen y hy]
    exact ⟨_, hup₂⟩)
  have hmiss₂ : ¬ SetPointsMet S (c + x) := by
    intro hm
    refine hmiss fun k tol hk => ?_
    obtain rfl := hone k
    have h6 : |S.miss (c + x) 0| < tol := hm 0 tol hk
    have h7 : S.miss (c + x) 0 = 2 * S.miss c 0 := by
      rw [miss_add hS, Pi.sub_apply]
      simp only [act, Fin.sum_univ_one]
      linarith
    have h8 : |S.miss c 0| < tol := by
      rw [h7, abs_mul, abs_two] at h6
      linarith [abs_nonneg (S.miss c 0)]
    exact h8
  cases b₂ with
  | true => exact absurd (hb₂.1 rfl) hmiss₂
  | false =>
    refine never_of_cycle hnext hev₂ N fun M _ => blind_forever hS.toSound heigh hnull hls rfl hl hmiss₂ M _ t₃ hAt₂ ?_
    rw [hseen _ (hy₂ 0), hup₂]
    exact hE₂

/-- The hypotheses of the theorem for any gradient, with the negative of the gradient. -/
example {eigh : Eigh} (heigh : EighSpec eigh) {nullspace : Nullspace} (hnull : NullspaceSpec nullspace) {lstsq : Newton.Lstsq (Fin 1)} (hls : Newton.LstsqSpec lstsq) :
    EndsOrBlind oneGateSetup (kalmanI eigh nullspace) lstsq 1 (fresh (wrongTuner (-1 / 2)) (volts fun _ => 10)) := by
  have hg : oneGateSetup.grad 0 0 / oneGateSetup.scale 0 = 1 / 2 := by
    simp [oneGateSetup]
    norm_num
  refine any_gradient_ends_or_is_blind oneGateSetup_valid heigh hnull hls _ (r := 1) one_pos (by norm_num) ?_ (wrong_initial _) (by simp [oneGateSetup]) ?_
  · intro y hy
    have : y = 1 := hy
    subst this
    simp [oneGateSetup]
    norm_num
  · intro tol h
    rw [wrong_estimate, hg]
    have : tol = 1 / 10 := by simpa [oneGateSetup, eq_comm] using h
    rw [this]
    norm_num [abs_of_neg]

/-- With the same wrong gradient -1/2 and the start 21/4 the tuning never ends. -/
example {eigh : Eigh} (heigh : EighSpec eigh) {nullspace : Nullspace} (hnull : NullspaceSpec nullspace) {lstsq : Newton.Lstsq (Fin 1)} (hls : Newton.LstsqSpec lstsq) :
    NeverComplete (hierarchy (kalmanI eigh nullspace) lstsq oneGateSetup.outs) (fresh (wrongTuner (-1 / 2)) (volts fun _ => 21 / 4)) := by
  have hg : oneGateSetup.grad 0 0 / oneGateSetup.scale 0 = 1 / 2 := by
    simp [oneGateSetup]
    norm_num
  have hc : (wrongEst (-1 / 2)).cov 0 0 = 1 := by simp [wrongEst, Est.cov, KG.new]
  refine wrong_sign_refuted oneGateSetup_valid heigh hnull hls _ (r := 1 / 16) one_pos (by norm_num) ?_ (wrong_initial _) rfl (by simp [oneGateSetup]) ?_ hc.le ?_ ?_ ?_
  · intro y hy
    have : y = 1 := hy
    subst this
    simp [oneGateSetup]
    norm_num
  · rw [wrong_estimate, hg]
    norm_num
  · rw [hc, hg]
    simp [oneGateSetup]
    norm_num
  · rw [hc]
    norm_num
  · intro h
    have := h 0 (1 / 10) (by simp [oneGateSetup])
    simp [oneGateSetup] at this
    norm_num [abs_lt] at this

end Qtune.EndToEnd
