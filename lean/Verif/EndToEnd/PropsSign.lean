import Verif.EndToEnd.SignRun
import Verif.EndToEnd.PropsKink

/-! # C214: one gate, an estimator that knows only the sign of the gradient -/

namespace Qtune.EndToEnd

open Qtune.Tuner Qtune.Gradient Qtune.Kalman Qtune.Autotuner Matrix

/-- **C214**.  An autotuner with a single tuner without maximal step size, with a Newton solver and a Kalman estimator, tunes one parameter with one gate if the parameter is
an affine function of the voltage, however wrong the gradient is with which the estimator begins, if it has the right sign.  (`learns_and_tunes` demands that the error is small in
units of the limit.)  The first Newton steps may be much too long; they teach the estimator the size of the gradient.  The tolerance must be at least what a step of `1e-7` changes with the
estimated and with the true gradient, since the estimator does not learn from shorter steps. -/
theorem right_sign_is_tuned_partial {S : Setup 1 1} (hS : S.Valid) {eigh : Eigh} (heigh : EighSpec eigh) {nullspace : Nullspace}
    (hnull : NullspaceSpec nullspace) {lstsq : Newton.Lstsq (Fin 1)} (hls : Newton.LstsqSpec lstsq) (c : Vec 1) {l ε r : ℝ} (hl : 0 < l)
    (hε : 1 / 10000000 ≤ |ε|) (hvar : ∀ y ∈ S.variances, 0 < y ∧ y / (S.scale 0 * S.scale 0) ≤ r) {e : Est 1} {t : OneTuner (Est 1) 1}
    (ht : LearningInitial S l ε (fun _ => e) t) (hsign : 0 < e.estimate 0 * (S.grad 0 0 / S.scale 0))
    (hfine : ∀ tol, (S.row 0).tolerance = some tol → max |e.estimate 0| |S.grad 0 0 / S.scale 0| * (1 / 10000000) ≤ tol) :
    ∃ K, CompletesWithin S (kalmanI eigh nullspace) lstsq K (fresh t (volts c)) := by
  have hone : ∀ k : Fin 1, k = 0 := fun k => Subsingleton.elim _ _
  have hpos : ∀ y ∈ S.seen 0, 0 < y ∧ y ≤ r := by
    rintro y ⟨v, hv, rfl⟩
    exact ⟨div_pos (hvar v hv).1 (mul_self_pos.2 (hS.scale 0).2), (hvar v hv).2⟩
  have hr : 0 < r := by
    obtain ⟨y, hy, -⟩ := hS.evaluators c
    have := hpos _ ⟨y 0, hy 0, rfl⟩
    linarith
  have hgs : S.grad 0 0 / S.scale 0 = S.slope 0 0 := rfl
  rw [hgs] at hsign hfine
  set g := S.slope 0 0 with hg
  have hg0 : g ≠ 0 := by
    intro h0
    rw [h0, mul_zero] at hsign
    exact lt_irrefl _ hsign
  set f := e.estimate 0 / g with hf
  have hfg : e.estimate 0 = f * g := by rw [hf, div_mul_cancel₀ _ hg0]
  have hf0 : 0 < f := by
    rw [hfg, mul_assoc] at hsign
    exact (mul_pos_iff_of_pos_right (mul_self_pos.2 hg0)).1 hsign
  have hc : 0 < e.cov 0 0 := (ht.covariance 0).diag_pos
  have hlo : 0 < min 1 f := lt_min one_pos hf0
  have hpsd : e.filter.P.PosSemidef := by
    rw [cov_submatrix']
    exact (ht.covariance 0).posSemidef.submatrix _
  have hfac : ∃ f', e.estimate 0 = f' * S.slope 0 0 ∧ f' - 1 = (f - 1) / e.cov 0 0 * e.cov 0 0 ∧ min 1 f ≤ f' ∧ f' ≤ max 1 f :=
    ⟨f, hfg, (div_mul_cancel₀ _ hc.ne').symm, min_le_right _ _, le_max_right _ _⟩
  have hfine' : ∀ tol, (S.row 0).tolerance = some tol → max 1 f * |S.slope 0 0| * (1 / 10000000) ≤ tol := by
    intro tol hk
    refine le_trans (le_of_eq ?_) (hfine tol hk)
    rw [max_mul_of_nonneg _ _ (abs_nonneg _), one_mul, hfg, abs_mul, abs_of_pos hf0, max_comm]
  have hbase : Base S (none, t.maxNumber) (fun _ => e) t :=
    ⟨ht.target, ht.ests, ht.gates, ht.index, ht.maxStep, rfl, ht.queued, ht.lastIndex⟩
  set δ : ℝ := (1 / 10000000) ^ 2 / r with hδ
  have hδ0 : 0 < δ := by positivity
  obtain ⟨T, hT⟩ := exists_nat_ge (3 * |(f - 1) / e.cov 0 0| / δ)
  rw [div_le_iff₀ hδ0] at hT
  obtain ⟨R, hR⟩ := exists_nat_ge (l⁻¹ / δ)
  rw [div_le_iff₀ hδ0] at hR
  obtain ⟨N, hN⟩ : ∃ N : ℕ, ∀ tol, (S.row 0).tolerance = some tol →
      (1 / 2) ^ (N + 1) * ((1 + (min 1 f)⁻¹) ^ (T + 1) * (len (S.miss c) + R * (|ε| * |S.slope 0 0|))) < tol := by
    cases htol : (S.row 0).tolerance with
    | none => exact ⟨0, by simp⟩
    | some tol =>
      have h1 : Filter.Tendsto (fun N : ℕ => (1 / 2 : ℝ) ^ N) Filter.atTop (nhds 0) := tendsto_pow_atTop_nhds_zero_of_lt_one (by norm_num) (by norm_num)
      have h2 := ((Filter.tendsto_add_atTop_iff_nat 1).2 h1).mul_const ((1 + (min 1 f)⁻¹) ^ (T + 1) * (len (S.miss c) + R * (|ε| * |S.slope 0 0|)))
      rw [zero_mul] at h2
      obtain ⟨N, hN⟩ := (h2.eventually (gt_mem_nhds (hS.tolerance 0 tol htol))).exists
      refine ⟨N, fun tol' h => ?_⟩
      cases h
      exact hN
  refine ⟨_, first_evaluation (A := fun _ e' => Signed S l (e.cov 0 0) ε ((f - 1) / e.cov 0 0) (min 1 f) (max 1 f) c e') hS.toSound hbase c ?_
    (3 * (R + T + N + 2)) ?_⟩
  · intro k y hy
    obtain rfl := hone k
    rcases ht.value 0 with hv | ⟨p, hp, hv⟩
    · refine ⟨{ e with value := some (S.scaled 0 c), pos := volts c }, ?_, ⟨ht.static 0, hpsd, ht.limit 0, ht.eps 0, rfl, rfl, hc, le_rfl, hfac⟩⟩
      have hv' : e.value = none := hv
      simp [kalmanI, Est.update, hv']
    · have h : Signed S l (e.cov 0 0) ε ((f - 1) / e.cov 0 0) (min 1 f) (max 1 f) p e :=
        ⟨ht.static 0, hpsd, ht.limit 0, ht.eps 0, hp, hv, hc, le_rfl, hfac⟩
      obtain ⟨e', h1, h2, -⟩ := h.update hS (min_le_left _ _) (le_max_left _ _) c (hpos y hy).1 eigh nullspace
      exact ⟨e', h1, h2⟩
  · intro E t' hAt hE
    refine signed_requests hS heigh hnull hls rfl hl hε hlo (min_le_left _ _) (le_max_left _ _) hg0 hpos hfine' N T hT R E c t' hAt (hE 0) ?_ hN
    have := inv_pos.2 (hE 0).positive
    rw [← hδ]
    linarith

/-- The Newton step with the estimate 0 of the gradient is 0: the shortest least squares solution. -/
theorem zero_suggestion {X : Type} {S : Setup 1 1} (hS : S.Sound) {μ : Val × Int} {I : Newton.EstI X (Fin 1)} {lstsq : Newton.Lstsq (Fin 1)}
    (hls : Newton.LstsqSpec lstsq) {E : Fin 1 → X} {q : Vec 1} {t : OneTuner X 1} (h : At S μ E q t)
    (hsilent : ∀ tj, I.require S.gates tj (E 0) = (E 0, .ok none)) (hG : I.estimate (E 0) = some fun _ => some 0) :
    Newton.suggest I lstsq [] t.solver = ({ t.solver with ests := List.ofFn E }, .ok fun i => some (some (q i))) := by
  have h1 := h.target
  have h2 := h.pos
  have h3 := h.ests
  have h4 := h.gates
  rcases t with ⟨⟨T, es, gs, ps, vs⟩, _, _, _, _, _, _, _, _, _⟩
  simp only at h1 h2 h3 h4 ⊢
  have hes : es = [E 0] := by rw [h3]; simp
  have hT : T = [S.row 0] := by rw [h1]; simp [Setup.target]
  subst hT hes h4 h2
  obtain ⟨x, hx, hlst⟩ := hls S.gates [fun _ => 0] [Newton.requiredDiff (S.row 0).desired (vs.val (S.row 0).name)] rfl
  have hx0 : ∀ i, x i = 0 := by
    have h5 := hlst.shortest (fun _ => 0) (by simp [Newton.residual, Newton.change])
    have h6 : Newton.lengthSq S.gates x ≤ 0 := by
      refine h5.trans (le_of_eq ?_)
      simp [Newton.lengthSq]
    intro i
    have h7 : x i ^ 2 ≤ Newton.lengthSq S.gates x :=
      Finset.single_le_sum (f := fun j => x j ^ 2) (fun j _ => sq_nonneg _) (List.mem_toFinset.2 (hS.gates_all i))
    exact pow_eq_zero_iff (two_ne_zero) |>.1 (le_antisymm (h7.trans h6) (sq_nonneg _))
  obtain ⟨tj, htj⟩ := Newton.tunedJacobian_ok I [] ⟨[S.row 0], [E 0], S.gates, fun i => some (q i), vs⟩ (by
    intro e he
    simp only [List.mem_singleton] at he
    rw [he, hG]
    simp)
  have hask := Newton.ask_none I S.gates tj ([S.row 0].zip [E 0]) (fun re hre _ => by
    simp only [List.zip_cons_cons, List.zip_nil_right, List.mem_singleton] at hre
    rw [hre]
    exact hsilent tj)
  have hconcat := Newton.concat_some [fun _ : Fin 1 => (some 0 : Val)] (by simp)
  unfold Newton.suggest
  erw [htj]
  simp only [hask]
  unfold Newton.newtonStep
  simp only [List.zip_cons_cons, List.zip_nil_right, List.map_cons, List.map_nil, hG] at hconcat hx ⊢
  simp only [hconcat]
  rw [if_neg (by simp), hx]
  simp [hS.gates_all, hx0, Val.add]
  rfl

/-- An estimator that believes with certainty that the gate does nothing. -/
structure Blind (S : Setup 1 1) (l : ℝ) (q : Vec 1) (e : Est 1) : Prop where
  static : Static e.filter
  psd : e.filter.P.PosSemidef
  limit : e.maxCov = fun _ => .fin l
  certain : e.cov 0 0 ≤ l
  pos : e.pos = volts q
  value : e.value = some (S.scaled 0 q)
  blind : e.estimate 0 = 0

/-- An evaluation at the same voltage changes nothing. -/
theorem Blind.update {S : Setup 1 1} {l : ℝ} {q : Vec 1} {e : Est 1} (h : Blind S l q e) (y : ℝ) (eigh : Eigh) (nullspace : Nullspace) :
    (kalmanI eigh nullspace).update (volts q) (some (S.scaled 0 q)) (some y) e = (e, .ok ()) := by
  have hdiff : ∀ i, Val.sub (volts q i) (volts q i) = some ((0 : Vec 1) i) := fun i => by simp [Val.sub, volts]
  have : e.update (volts q) (S.scaled 0 q) y true = ({ e with value := some (S.scaled 0 q), pos := volts q }, .ok ()) := by
    unfold Est.update
    simp only [h.value, h.pos]
    simp only [hdiff, Option.getD_some]
    rw [if_pos (by simp)]
    rfl
  have h2 : ({ e with value := some (S.scaled 0 q), pos := volts q } : Est 1) = e := by
    rw [← h.value, ← h.pos]
  rw [h2] at this
  exact this

theorem blind_forever {S : Setup 1 1} (hS : S.Sound) {eigh : Eigh} (heigh : EighSpec eigh) {nullspace : Nullspace} (hnull : NullspaceSpec nullspace)
    {lstsq : Newton.Lstsq (Fin 1)} (hls : Newton.LstsqSpec lstsq) {μ : Val × Int} (hμ : μ.1 = none) {l : ℝ} (hl : 0 < l) {q : Vec 1}
    (hmiss : ¬ SetPointsMet S q) (N : Nat) :
    ∀ (E : Fin 1 → Est 1) (t : OneTuner (Est 1) 1), At S μ E q t → Blind S l q (E 0) →
      ∃ s', iterates (hierarchy (kalmanI eigh nullspace) lstsq S.outs) N ⟨t, volts q, 0, true, none⟩ = .ok s' ∧
        isComplete (hierarchy (kalmanI eigh nullspace) lstsq S.outs) s' = false := by
  induction N using Nat.strong_induction_on with
  | _ N ih =>
  intro E t h hE
  have hone : ∀ k : Fin 1, k = 0 := fun k => Subsingleton.elim _ _
  have hsug := zero_suggestion hS (I := kalmanI eigh nullspace) hls h (fun tj =>
    certain_silent (g := (E 0).estimate) hl
      ⟨hE.static, rfl, hE.psd, hE.limit, fun v hv => by
        rw [Fin.sum_univ_one] at hv
        rw [variance_one, hv, mul_one]
        exact hE.certain⟩ ⟨q, hE.pos, hE.value⟩ heigh hnull hS.gates_nodup one_ne_zero tj) (by
    have : (E 0).estimate = fun _ => 0 := by
      funext i
      rw [hone i, hE.blind]
    simp [kalmanI, this])
  obtain ⟨t', hnext, hbase⟩ := suggestion (q' := q) h (by rw [hμ]; simp) hsug
  obtain ⟨y, t'', b, hev, -, hAt, hb⟩ := evaluation hS (lstsq := lstsq) (I := kalmanI eigh nullspace) hbase q (fun k y _ => by
    rw [hone k]
    exact ⟨_, hE.update y eigh nullspace⟩)
  cases b with
  | true => exact absurd (hb.1 rfl) hmiss
  | false =>
    refine never_of_cycle hnext hev N fun M hM => ih M hM _ _ hAt ?_
    rw [hE.update]
    exact hE

/-- **C214**, refuted for an estimator that believes, with a variance below its limit, that the gate does nothing: the Newton steps are 0, so that the estimator learns nothing.  `iterate` never
raises and the tuning is never complete, however often it is called. -/
theorem blind_estimator_refuted {S : Setup 1 1} (hS : S.Sound) {eigh : Eigh} (heigh : EighSpec eigh) {nullspace : Nullspace} (hnull : NullspaceSpec nullspace)
    {lstsq : Newton.Lstsq (Fin 1)} (hls : Newton.LstsqSpec lstsq) (c : Vec 1) {l ε : ℝ} (hl : 0 < l) {e : Est 1} {t : OneTuner (Est 1) 1}
    (ht : LearningInitial S l ε (fun _ => e) t) (hfirst : e.value = none) (hzero : e.estimate 0 = 0) (hsure : e.cov 0 0 ≤ l) (hmiss : ¬ SetPointsMet S c) :
    NeverComplete (hierarchy (kalmanI eigh nullspace) lstsq S.outs) (fresh t (volts c)) := by
  intro N
  have hone : ∀ k : Fin 1, k = 0 := fun k => Subsingleton.elim _ _
  have hpsd : e.filter.P.PosSemidef := by
    rw [cov_submatrix']
    exact (ht.covariance 0).posSemidef.submatrix _
  have hupd : ∀ y : ℝ, (kalmanI eigh nullspace).update (volts c) (some (S.scaled 0 c)) (some y) e =
      ({ e with value := some (S.scaled 0 c), pos := volts c }, .ok ()) := fun y => by
    simp [kalmanI, Est.update, hfirst]
  obtain ⟨y, t', b, hev, -, hAt, hb⟩ := evaluation (μ := (none, t.maxNumber)) (lstsq := lstsq) (I := kalmanI eigh nullspace) (E := fun _ => e) hS
    ⟨ht.target, ht.ests, ht.gates, ht.index, ht.maxStep, rfl, ht.queued, ht.lastIndex⟩ c (fun k y _ => by
      rw [hone k]
      exact ⟨_, hupd y⟩)
  cases b with
  | true => exact absurd (hb.1 rfl) hmiss
  | false =>
  have h1 : iterates (hierarchy (kalmanI eigh nullspace) lstsq S.outs) 1 (fresh t (volts c)) = .ok ⟨t', volts c, 0, true, none⟩ := by
    have : (iterate (hierarchy (kalmanI eigh nullspace) lstsq S.outs) (.ok ()) (fresh t (volts c))).1 = ⟨t', volts c, 0, true, none⟩ ∧
        (iterate (hierarchy (kalmanI eigh nullspace) lstsq S.outs) (.ok ()) (fresh t (volts c))).2.2 = .ok () := by
      simp [iterate, fresh, hierarchy, isComplete, finish, hev]
    unfold iterates
    rcases hi : iterate (hierarchy (kalmanI eigh nullspace) lstsq S.outs) (.ok ()) (fresh t (volts c)) with ⟨s₁, ev, r⟩
    rw [hi] at this
    simp only at this
    obtain ⟨rfl, rfl⟩ := this
    rfl
  cases N with
  | zero => exact ⟨_, rfl, rfl⟩
  | succ N =>
    rw [Nat.add_comm, iterates_add _ 1 N _ _ h1]
    refine blind_forever hS heigh hnull hls rfl hl hmiss N _ t' hAt ?_
    rw [hupd]
    exact ⟨ht.static 0, hpsd, ht.limit 0, hsure, rfl, rfl, hzero⟩

/-- An estimator for the gate of `oneGateSetup` that begins with the gradient `g` instead of 1/2. -/
noncomputable def wrongEst (g : ℝ) : Est 1 := ⟨KG.new none (some fun _ => g) (some 1) none none 1, fun _ => none, none, fun _ => .fin 1, fun _ => 1⟩

/-- A tuner without maximal step size with this estimator. -/
noncomputable def wrongTuner (g : ℝ) : OneTuner (Est 1) 1 :=
  ⟨⟨oneGateSetup.target, [wrongEst g], [0], fun _ => none, [("x", none)]⟩, [], fun _ => none, [], [], false, [], none, 5, 0⟩

theorem wrong_initial (g : ℝ) : LearningInitial oneGateSetup 1 1 (fun _ => wrongEst g) (wrongTuner g) :=
  ⟨rfl, rfl, fun _ => ⟨rfl, rfl, rfl⟩, fun _ => Matrix.PosDef.one, fun _ => rfl, fun _ => rfl, fun _ => .inl rfl, rfl, rfl, by simp [wrongTuner, Series.index], rfl, rfl⟩

theorem wrong_estimate (g : ℝ) : (wrongEst g).estimate 0 = g := by simp [wrongEst, Est.estimate, KG.grad, KG.new]

/-- The hypotheses: the estimate 1/100 is fifty times too small, so that the first Newton step is fifty times too long; the tuning is completed. -/
example {eigh : Eigh} (heigh : EighSpec eigh) {nullspace : Nullspace} (hnull : NullspaceSpec nullspace) {lstsq : Newton.Lstsq (Fin 1)} (hls : Newton.LstsqSpec lstsq) :
    ∃ K, CompletesWithin oneGateSetup (kalmanI eigh nullspace) lstsq K (fresh (wrongTuner (1 / 100)) (volts fun _ => 10)) := by
  have hg : oneGateSetup.grad 0 0 / oneGateSetup.scale 0 = 1 / 2 := by
    simp [oneGateSetup]
    norm_num
  refine right_sign_is_tuned_partial oneGateSetup_valid heigh hnull hls _ (r := 1) one_pos (by norm_num) ?_ (wrong_initial _) ?_ ?_
  · intro y hy
    have : y = 1 := hy
    subst this
    simp [oneGateSetup]
    norm_num
  · rw [wrong_estimate, hg]
    norm_num
  · intro tol h
    rw [wrong_estimate, hg]
    have : tol = 1 / 10 := by simpa [oneGateSetup, eq_comm] using h
    rw [this]
    norm_num

/-- The same device with the estimate 0 is never tuned. -/
example {eigh : Eigh} (heigh : EighSpec eigh) {nullspace : Nullspace} (hnull : NullspaceSpec nullspace) {lstsq : Newton.Lstsq (Fin 1)} (hls : Newton.LstsqSpec lstsq) :
    NeverComplete (hierarchy (kalmanI eigh nullspace) lstsq oneGateSetup.outs) (fresh (wrongTuner 0) (volts fun _ => 0)) := by
  refine blind_estimator_refuted oneGateSetup_valid.toSound heigh hnull hls _ one_pos (wrong_initial 0) rfl (wrong_estimate 0) (by simp [wrongEst, Est.cov, KG.new]) ?_
  intro h
  have := h 0 (1 / 10) (by simp [oneGateSetup])
  simp [oneGateSetup] at this
  norm_num at this

end Qtune.EndToEnd
