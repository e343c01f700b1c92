import Verif.EndToEnd.Props
import Verif.EndToEnd.Kalman
import Verif.Kalman.PropsConvergence
import Verif.Kalman.EstimatorHistory

/-!
# End to end with Kalman estimators that know the gradients

For example after the gradients have been measured in an earlier tuning.
-/

namespace Qtune.EndToEnd

open Matrix Qtune.Tuner Qtune.Gradient Qtune.Autotuner Qtune.Kalman

variable {n m : Nat}

/-- The first evaluation, when it gives the estimators what they need to keep the gradients.  `K` calls are
needed after that. -/
theorem first_evaluation {X : Type} {S : Setup n m} (hS : S.Sound) {I : Newton.EstI X (Fin n)}
    {lstsq : Newton.Lstsq (Fin n)} {μ : Val × Int} {E : Fin m → X} {t : OneTuner X n} (hbase : Base S μ E t)
    (c : Vec n) {A : Fin m → X → Prop}
    (hupd : ∀ k, ∀ y ∈ S.seen k,
      ∃ e', I.update (volts c) (some (S.scaled k c)) (some y) (E k) = (e', .ok ()) ∧ A k e')
    (K : Nat)
    (hK : ∀ (E : Fin m → X) (t' : OneTuner X n), At S μ E c t' → (∀ k, A k (E k)) →
      CompletesWithin S I lstsq K ⟨t', volts c, 0, true, none⟩) :
    CompletesWithin S I lstsq (1 + K) (fresh t (volts c)) := by
  obtain ⟨y, t', b, hev, hy, hAt, hb⟩ := evaluation (lstsq := lstsq) (I := I) hS hbase c
    (fun k y hy => by
      obtain ⟨e', he', -⟩ := hupd k y hy
      exact ⟨e', he'⟩)
  have h1 : iterates (hierarchy I lstsq S.outs) 1 (fresh t (volts c)) =
      .ok ⟨t', volts c, if b then 1 else 0, !b, none⟩ := by
    have : (iterate (hierarchy I lstsq S.outs) (.ok ()) (fresh t (volts c))).1 =
        ⟨t', volts c, if b then 1 else 0, !b, none⟩ ∧
        (iterate (hierarchy I lstsq S.outs) (.ok ()) (fresh t (volts c))).2.2 = .ok () := by
      cases b <;> simp [iterate, fresh, hierarchy, isComplete, finish, hev]
    unfold iterates
    rcases hi : iterate (hierarchy I lstsq S.outs) (.ok ()) (fresh t (volts c)) with ⟨s₁, ev, r⟩
    rw [hi] at this
    simp only at this
    obtain ⟨rfl, rfl⟩ := this
    rfl
  cases b with
  | true => exact ⟨1, by omega, _, h1, rfl, c, rfl, hb.1 rfl⟩
  | false =>
    obtain ⟨M, hM, s', hs', hc⟩ := hK _ t' hAt fun k => by
      obtain ⟨e', he', hA⟩ := hupd k (y k) (hy k)
      rw [he']
      exact hA
    refine ⟨1 + M, by omega, s', ?_, hc⟩
    rw [iterates_add _ 1 M _ _ h1]
    exact hs'

/-- A Kalman estimator without dynamics that knows the gradient `g`; its uncertainty is below the limit `l`
in all directions. -/
structure Certain (g : Vec n) (l : ℝ) (e : Est n) : Prop where
  static : Static e.filter
  gradient : e.estimate = g
  psd : e.filter.P.PosSemidef
  limit : e.maxCov = fun _ => .fin l
  certain : ∀ v : Vec n, ∑ i, v i ^ 2 = 1 → variance e.cov v ≤ l

/-- The reference point of the estimator is a point with the exact value. -/
def Measured (f : Vec n → ℝ) (e : Est n) : Prop := ∃ p : Vec n, e.pos = volts p ∧ e.value = some (f p)

theorem certain_silent_at {g : Vec n} {l : ℝ} (hl : 0 < l) {e : Est n} (h : Certain g l e) {p : Vec n}
    (hp : e.pos = volts p) {eigh : Eigh} (heigh : EighSpec eigh) {nullspace : Nullspace}
    (hnull : NullspaceSpec nullspace) {gates : List (Fin n)} (hg : gates.Nodup) (hn : n ≠ 0)
    (tj : Option (List (Fin n → Val))) :
    (kalmanI eigh nullspace).require gates tj e = (e, .ok none) := by
  have he : e = Est.new e.filter p e.value (fun _ => .fin l) e.eps := by
    have hlim := h.limit
    obtain ⟨f, pos, value, mc, eps⟩ := e
    simp only at hlim hp
    subst hlim hp
    rfl
  have hc : ∀ v : Vec n, ∑ i, v i ^ 2 = 1 →
      variance (Est.new e.filter p e.value (fun _ => .fin l) e.eps).cov v ≤ l := by
    rw [← he]; exact h.certain
  cases tj with
  | none =>
    have := (kalman_request heigh hg e.filter h.psd p e.value e.eps l hl).1.2 fun v hu => hc v hu.unit
    rw [← he] at this
    simp [kalmanI, this]
  | some rows =>
    simp only [kalmanI, Prod.mk.injEq, true_and, Except.ok.injEq, Option.map_eq_none_iff]
    rw [he, requireTuned_eq _ _ _ _ _ _ _ _ hn]
    dsimp only
    rw [if_neg]
    rintro ⟨v, hv, hlt⟩
    have := hc v (directions_unitNull hnull (List.nodup_iff_injective_get.1 hg) hv).unit
    linarith

theorem certain_silent {g : Vec n} {l : ℝ} (hl : 0 < l) {e : Est n} (h : Certain g l e) {f : Vec n → ℝ}
    (hm : Measured f e) {eigh : Eigh} (heigh : EighSpec eigh) {nullspace : Nullspace}
    (hnull : NullspaceSpec nullspace) {gates : List (Fin n)} (hg : gates.Nodup) (hn : n ≠ 0)
    (tj : Option (List (Fin n → Val))) :
    (kalmanI eigh nullspace).require gates tj e = (e, .ok none) :=
  certain_silent_at hl h hm.choose_spec.1 heigh hnull hg hn tj

theorem certain_update {S : Setup n m} (ha : S.Affine) {k : Fin m} {l : ℝ} {e : Est n} {eigh : Eigh} {nullspace : Nullspace}
    (h : Certain (fun i => S.grad k i / S.scale k) l e)
    (hm : e.value = none ∨ Measured (S.scaled k) e) (q : Vec n) {y : ℝ} (hy : 0 < y) :
    ∃ e', (kalmanI eigh nullspace).update (volts q) (some (S.scaled k q)) (some y) e = (e', .ok ()) ∧
      Certain (fun i => S.grad k i / S.scale k) l e' ∧ Measured (S.scaled k) e' := by
  simp only [kalmanI, Option.getD_some]
  rcases hm with hnone | ⟨p, hp, hv⟩
  · refine ⟨{ e with value := some (S.scaled k q), pos := volts q }, by simp [Est.update, hnone],
      ⟨h.static, h.gradient, h.psd, h.limit, h.certain⟩, q, rfl, rfl⟩
  · unfold Est.update
    rw [hv]
    simp only [hp]
    have hdiff : ∀ i, (volts q i).sub (volts p i) = some (q i - p i) := fun i => rfl
    simp only [hdiff, Option.getD_some]
    split_ifs with hshort hex
    · exact ⟨_, rfl, ⟨h.static, h.gradient, h.psd, h.limit, h.certain⟩, q, rfl, rfl⟩
    · obtain ⟨i, hi⟩ := hex
      cases hi
    · let call : Call 1 n := ⟨fun i => q i - p i, fun _ => S.scaled k q - S.scaled k p,
        some (y • (1 : Matrix (Fin 1) (Fin 1) ℝ)), none, true⟩
      have hR : ((some (y • (1 : Matrix (Fin 1) (Fin 1) ℝ))).getD e.filter.R).PosDef := scalar_posDef hy
      have hup : e.filter.update call.diff call.values call.R call.Q call.predict = _ :=
        (update_static h.static call rfl).trans (correct_ok h.psd hR _ _)
      have hz : call.values - matrixH 1 call.diff *ᵥ e.filter.x = 0 := by
        rw [← flat_grad e.filter, matrixH_flat]
        funext j
        obtain rfl : j = 0 := Subsingleton.elim _ _
        have haff := (Setup.scaled_affine ha k).sub q p
        have hgr : ∀ i, e.filter.grad 0 i = S.grad k i / S.scale k := fun i => congrFun h.gradient i
        simp only [Pi.sub_apply, Pi.zero_apply, hgr, call]
        rw [haff]
        simp
      rw [hz, mulVec_zero, add_zero] at hup
      simp only [call] at hup
      obtain ⟨f', hf', hdec, -⟩ := correction_decreases_variance e.filter h.psd call.diff call.values call.R hR
      have hflag : e.filter.update call.diff call.values call.R none true = (f', .ok ()) := by
        rw [← hf']
        exact (update_static h.static call rfl).trans
          (update_static h.static { call with predict := false } rfl).symm
      have hpsd := (feed_ok e.filter h.psd (by rw [h.static.Q]; exact PosSemidef.zero) call.diff call.values
        hy).2.1
      have hpsd' : f'.P.PosSemidef := by
        have : e.filter.update call.diff call.values (some (y • 1)) none true = (f', .ok ()) := hflag
        rw [this] at hpsd
        exact hpsd
      have hf : f' = _ := (Prod.mk.inj (hflag.symm.trans hup)).1
      simp only [call] at hflag
      rw [hflag]
      refine ⟨_, rfl, ⟨⟨?_, ?_, ?_⟩, ?_, hpsd', h.limit, ?_⟩, q, rfl, rfl⟩
      · rw [hf]; exact h.static.F
      · rw [hf]; exact h.static.Q
      · rw [hf]; exact h.static.alpha
      · rw [hf]; exact h.gradient
      · intro v hv1
        refine le_trans ?_ (h.certain v hv1)
        rw [cov_variance, cov_variance]
        exact hdec fun j => v (j.cast (one_mul n))

/-- Kalman estimators that know the gradient keep it. -/
theorem kalman_keeps {S : Setup n m} (hS : S.Valid) (hn : n ≠ 0) (hpos : ∀ y ∈ S.variances, 0 < y)
    {eigh : Eigh} (heigh : EighSpec eigh) {nullspace : Nullspace} (hnull : NullspaceSpec nullspace) {l : ℝ}
    (hl : 0 < l) (k : Fin m) :
    Keeps S (kalmanI eigh nullspace) k
      (fun e => Certain (fun i => S.grad k i / S.scale k) l e ∧ Measured (S.scaled k) e) where
  silent := fun e h tj => certain_silent hl h.1 h.2 heigh hnull hS.gates_nodup hn tj
  gradient := fun e h => by simp [kalmanI, h.1.gradient]
  update := fun e h q y hy => by
    obtain ⟨v, hv, rfl⟩ := hy
    refine certain_update hS.affine h.1 (.inr h.2) q ?_
    exact div_pos (hpos v hv) (mul_self_pos.2 (hS.scale k).2)

/-- The tuner as it is set up: the target of `S`, one Kalman estimator for each parameter that knows its
gradient with an uncertainty below the limit `l`, no queued voltages. -/
structure KalmanInitial (S : Setup n m) (l : ℝ) (t : OneTuner (Est n) n) : Prop where
  target : t.solver.target = S.target
  /-- the estimators have no value yet, or the value at their position -/
  ests : ∃ E : Fin m → Est n, t.solver.ests = List.ofFn E ∧
    ∀ k, Certain (fun i => S.grad k i / S.scale k) l (E k) ∧
      ((E k).value = none ∨ Measured (fun v => S.response k v / S.scale k) (E k))
  gates : t.solver.gates = S.gates
  index : t.solver.values.index = S.target.names
  lastIndex : t.lastValues.index ⊆ S.target.names
  queued : t.queued = 0

/-- **C112**.  An autotuner whose single tuner uses a Newton solver and Kalman estimators that know the
gradients with an uncertainty below the limit tunes every affine device with linearly independent gradients
whose evaluators report positive variances: `iterate` never raises; without a maximal step size the tuning
is complete after at most 4 calls, with a maximal step size `M` after at most `4 + 3 * ⌊|y - c| / M⌋` calls,
where `y` is any point that meets the set points.  The voltages then meet all set points within their
tolerances. -/
theorem affine_device_is_tuned_kalman {S : Setup n m} (hS : S.Valid) (hpos : ∀ y ∈ S.variances, 0 < y)
    {eigh : Eigh} (heigh : EighSpec eigh) {nullspace : Nullspace} (hnull : NullspaceSpec nullspace)
    {lstsq : Newton.Lstsq (Fin n)} (hl : Newton.LstsqSpec lstsq) (c : Vec n) {t : OneTuner (Est n) n} {l : ℝ}
    (hl0 : 0 < l) (ht : KalmanInitial S l t) :
    (t.maxStep = none → CompletesWithin S (kalmanI eigh nullspace) lstsq 4 (fresh t (volts c))) ∧
    ∀ (M : ℝ) (y : Vec n), t.maxStep = some M → 0 < M → 1 ≤ t.maxNumber →
      (∀ k, S.response k y / S.scale k = S.desired k) →
      CompletesWithin S (kalmanI eigh nullspace) lstsq (4 + 3 * ⌊len (y - c) / M⌋₊) (fresh t (volts c)) := by
  have hn : n ≠ 0 := by
    rintro rfl
    have := hS.independent.fintype_card_le_finrank
    simp at this
    exact hS.nonempty this
  obtain ⟨E, hests, hE⟩ := ht.ests
  have hbase : Base S (t.maxStep, t.maxNumber) E t :=
    ⟨ht.target, hests, ht.gates, ht.index, rfl, rfl, ht.queued, ht.lastIndex⟩
  have hA := kalman_keeps hS hn hpos heigh hnull hl0
  have hupd : ∀ k, ∀ y ∈ S.seen k, ∃ e', (kalmanI eigh nullspace).update (volts c) (some (S.scaled k c))
      (some y) (E k) = (e', .ok ()) ∧ Certain (fun i => S.grad k i / S.scale k) l e' ∧
        Measured (S.scaled k) e' := by
    rintro k y ⟨v, hv, rfl⟩
    exact certain_update hS.affine (hE k).1 (hE k).2 c (div_pos (hpos v hv) (mul_self_pos.2 (hS.scale k).2))
  constructor
  · intro hmax
    refine first_evaluation hS.toSound hbase c hupd 3 fun E' t' h hdone => ?_
    obtain ⟨x, hsug, -, hx, -⟩ := newton_suggestion hS hl h hA hdone
    exact newton_phase hS h hA hdone hsug hx (by rw [hmax]; simp)
  · intro M y hmax hM hnum hy
    have := first_evaluation hS.toSound hbase c hupd (3 * (⌊len (y - c) / M⌋₊ + 1)) fun E' t' h hdone => by
      rw [hmax] at h
      exact newton_phase_limited hS hl hM hnum hA _ (len (y - c)) E' c y t' hdone (le_refl _) h hy (le_refl _)
    obtain ⟨K, hK, hc⟩ := this
    exact ⟨K, by omega, hc⟩

/-! ### A tuner that meets the hypotheses -/

/-- Gradient `(1/2, -1/4)`, variance 1/2 in all directions, limit 1. -/
noncomputable def knownEst : Est 2 :=
  ⟨KG.new none (some ![1 / 2, -1 / 4]) (some ((1 / 2 : ℝ) • 1)) none none 1, fun _ => none, none,
    fun _ => .fin 1, fun _ => 3⟩

noncomputable def knownTuner : OneTuner (Est 2) 2 :=
  ⟨⟨sampleSetup.target, [knownEst], [0, 1], fun _ => none, [("x", none)]⟩,
    [], fun _ => none, [], [], false, [], some 1, 5, 0⟩

example : KalmanInitial sampleSetup 1 knownTuner ∧ (∀ y ∈ sampleSetup.variances, 0 < y) ∧
    ¬ SetPointsMet sampleSetup (fun _ => 80) := by
  refine ⟨⟨rfl, ⟨fun _ => knownEst, rfl, fun k => ⟨⟨⟨rfl, rfl, rfl⟩, ?_, ?_, rfl, ?_⟩, .inl rfl⟩⟩, rfl, rfl,
    by simp [knownTuner, Series.index], rfl⟩, ?_, ?_⟩
  · funext i
    fin_cases i <;> simp [knownEst, Est.estimate, KG.grad, KG.new, sampleSetup] <;> norm_num
  · exact PosSemidef.one.smul (by norm_num)
  · intro v hv
    have h : variance knownEst.cov v = 1 / 2 * ∑ i, v i ^ 2 := by
      simp [variance, Est.cov, knownEst, KG.new, Fin.sum_univ_two, one_apply]
      ring
    rw [h, hv]
    norm_num
  · intro y hy
    rw [Set.mem_singleton_iff.1 hy]
    norm_num
  · intro h
    have := h 0 (1 / 10) rfl
    simp [sampleSetup, Setup.response, Fin.sum_univ_two] at this
    norm_num [abs_lt] at this

end Qtune.EndToEnd
