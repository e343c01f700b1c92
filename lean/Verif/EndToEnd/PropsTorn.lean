import Verif.EndToEnd.TornRun
import Verif.EndToEnd.PropsInside
import Verif.EndToEnd.PropsRoughKalman
import Verif.EndToEnd.PropsAtLimit

/-! # C213: one gate, an update that is interrupted between the assignments of value and position -/

namespace Qtune.EndToEnd

open Qtune.Tuner Qtune.Gradient Qtune.Kalman Qtune.Autotuner Matrix

/-- The variance along a step of a single gate. -/
theorem variance_one (P : Matrix (Fin 1) (Fin 1) ℝ) (v : Fin 1 → ℝ) : variance P v = P 0 0 * v 0 ^ 2 := by
  simp only [variance, Fin.sum_univ_one]
  ring

/-- How many standard deviations the estimated gradient of a single gate is off, squared. -/
theorem surprise_one (e : Est 1) (g : Vec 1) : surprise e g = (e.estimate 0 - g 0) ^ 2 / e.cov 0 0 := by
  unfold surprise
  rw [variance_one, Matrix.inv_subsingleton, Matrix.diagonal_apply_eq, Ring.inverse_eq_inv']
  rw [div_eq_inv_mul]

/-- A torn update and its repetition, for a single gate: the filter is without dynamics, value and position are those of the present voltages, and variance and
estimate are given by the variance `V` along the last step before. -/
theorem torn_one_gate {g : Vec 1} {b : ℝ} {p : Vec 1} {e : Est 1} (h : Kalman.Knows g b p e) (q : Vec 1)
    (hstep : 1 / 10000000 ≤ Real.sqrt (∑ i, (q i - p i) ^ 2)) {r r' : ℝ} (hr : 0 < r) (hr' : 0 < r') :
    ∃ e₁ e₂, valuePart (volts q) (some (b + ∑ i, g i * q i)) (some r) e = [e₁] ∧
      e₁.update (volts q) (b + ∑ i, g i * q i) r' true = (e₂, .ok ()) ∧
      Static e₂.filter ∧ e₂.filter.P.PosSemidef ∧ e₂.maxCov = e.maxCov ∧ e₂.pos = volts q ∧ e₂.value = some (b + ∑ i, g i * q i) ∧
      e₂.cov 0 0 * (q 0 - p 0) ^ 2 =
        (e.cov 0 0 * (q 0 - p 0) ^ 2 * r / (e.cov 0 0 * (q 0 - p 0) ^ 2 + r)) * r' /
          (e.cov 0 0 * (q 0 - p 0) ^ 2 * r / (e.cov 0 0 * (q 0 - p 0) ^ 2 + r) + r') ∧
      e₂.estimate 0 = r' / (e.cov 0 0 * (q 0 - p 0) ^ 2 * r / (e.cov 0 0 * (q 0 - p 0) ^ 2 + r) + r') * g 0 := by
  obtain ⟨e₁, e₂, h1, h2, h3, -⟩ := torn_update_refuted h q hstep hr hr'
  set d : Vec 1 := fun i => q i - p i with hd
  have hd0 : q 0 - p 0 ≠ 0 := by
    intro h0
    rw [Fin.sum_univ_one, h0] at hstep
    norm_num at hstep
  have hcv : ∀ f : KG 1 1, ∀ E : Est 1, E.filter = f → wide d ⬝ᵥ (f.P *ᵥ wide d) = E.cov 0 0 * (q 0 - p 0) ^ 2 := by
    rintro f E rfl
    rw [← variance_one E.cov d, cov_variance, variance_eq]
    rfl
  have hV0 : 0 ≤ e.cov 0 0 * (q 0 - p 0) ^ 2 := by
    have := cov_nonneg h.psd d
    rwa [variance_one] at this
  obtain ⟨f', hf', hs', hP', hvar'⟩ := update_variance h.static h.psd d (b + ∑ i, g i * q i - (b + ∑ i, g i * p i)) hr
  obtain ⟨f₂, hf₂, hs₂, hP₂, hvar₂⟩ := update_variance hs' hP' d (b + ∑ i, g i * q i - (b + ∑ i, g i * q i)) hr'
  rw [hcv _ e rfl] at hvar'
  set V := e.cov 0 0 * (q 0 - p 0) ^ 2 with hV
  have hdiff : ∀ i, Val.sub (volts q i) (some (p i)) = some (d i) := fun i => rfl
  have hex : ¬ ∃ i : Fin 1, (some (d i) : Val) = none := by rintro ⟨i, hi⟩; cases hi
  have hup : ∀ (E : Est 1) (f : KG 1 1) (y z ρ : ℝ), E.value = some y → E.pos = (fun i => some (p i)) →
      E.filter.update d (fun _ => z - y) (some (ρ • 1)) none true = (f, .ok ()) →
      E.update (volts q) z ρ true = ({ E with filter := f, value := some z, pos := volts q }, .ok ()) := by
    intro E f y z ρ hE hpos hf
    unfold Est.update
    simp only [hE, hpos]
    simp only [hdiff, Option.getD_some]
    rw [if_neg (not_lt.2 hstep), if_neg hex, hf]
    rfl
  have hfirst := hup e f' _ _ r h.value h.pos hf'
  have he₁ : e₁ = { e with filter := f', value := some (b + ∑ i, g i * q i) } := by
    unfold valuePart at h1
    simp only [Option.getD_some] at h1
    rw [hfirst] at h1
    exact (List.cons.inj h1).1.symm
  have hsecond := hup e₁ f₂ (b + ∑ i, g i * q i) (b + ∑ i, g i * q i) r' (by rw [he₁]) (by rw [he₁]; exact h.pos) (by rw [he₁]; exact hf₂)
  rw [h2] at hsecond
  have he₂ : e₂ = { e with filter := f₂, value := some (b + ∑ i, g i * q i), pos := volts q } := by
    have := (Prod.mk.inj hsecond).1
    rw [this, he₁]
  have hVr : V + r ≠ 0 := by positivity
  have hW : wide d ⬝ᵥ (f'.P *ᵥ wide d) = V * r / (V + r) := by
    rw [hvar']
    field_simp
    ring
  rw [hW] at hvar₂
  have hW0 : 0 ≤ V * r / (V + r) := by positivity
  refine ⟨e₁, e₂, h1, h2, by rw [he₂]; exact hs₂, by rw [he₂]; exact hP₂, by rw [he₂], by rw [he₂], by rw [he₂], ?_, ?_⟩
  · rw [← hcv f₂ e₂ (by rw [he₂]), hvar₂]
    generalize V * r / (V + r) = W at hW0 ⊢
    have : W + r' ≠ 0 := by positivity
    field_simp
    ring
  · rw [variance_one, Fin.sum_univ_one, Fin.sum_univ_one] at h3
    have h4 : e₂.estimate 0 * (q 0 - p 0) = r' / (V * r / (V + r) + r') * g 0 * (q 0 - p 0) := by
      rw [mul_assoc]
      exact h3
    exact mul_right_cancel₀ hd0 h4

/-- The same if the last step was too short for an update of the filter. -/
theorem torn_short_step {g : Vec 1} {b : ℝ} {p : Vec 1} {e : Est 1} (h : Kalman.Knows g b p e) (q : Vec 1)
    (hstep : Real.sqrt (∑ i, (q i - p i) ^ 2) < 1 / 10000000) (r r' : ℝ) :
    ∃ e₁, valuePart (volts q) (some (b + ∑ i, g i * q i)) (some r) e = [e₁] ∧
      e₁.update (volts q) (b + ∑ i, g i * q i) r' true =
        ({ e with value := some (b + ∑ i, g i * q i), pos := volts q }, .ok ()) := by
  have hdiff : ∀ i, Val.sub (volts q i) (some (p i)) = some (q i - p i) := fun i => rfl
  have hup : ∀ (E : Est 1) (y z ρ : ℝ), E.value = some y → E.pos = (fun i => some (p i)) →
      E.update (volts q) z ρ true = ({ E with value := some z, pos := volts q }, .ok ()) := by
    intro E y z ρ hE hpos
    unfold Est.update
    simp only [hE, hpos]
    simp only [hdiff, Option.getD_some]
    rw [if_pos hstep]
    rfl
  refine ⟨{ e with value := some (b + ∑ i, g i * q i) }, ?_, ?_⟩
  · unfold valuePart
    simp only [Option.getD_some]
    rw [hup e _ _ r h.value h.pos]
  · rw [hup { e with value := some (b + ∑ i, g i * q i) } _ _ r' rfl h.pos]

/-- The same if the estimator had no value and no position yet: nothing is lost. -/
theorem torn_first_update {e : Est 1} (hv : e.value = none) (hp : e.pos = fun _ => none) (q : Vec 1) (z r r' : ℝ) :
    ∃ e₁, valuePart (volts q) (some z) (some r) e = [e₁] ∧
      e₁.update (volts q) z r' true = ({ e with value := some z, pos := volts q }, .ok ()) := by
  refine ⟨{ e with value := some z }, ?_, ?_⟩
  · unfold valuePart Est.update
    simp [hv]
  · have hdiff : ∀ i, Val.sub (volts q i) none = none := fun i => rfl
    unfold Est.update
    simp only [hp]
    simp only [hdiff, Option.getD_none]
    rw [if_pos (by simp)]
    rfl

/-- An estimator that requests nothing, with the value and the position of the present voltages; its error is so small that Newton steps reduce what is missing by the factor `a`. -/
def Near1 (S : Setup 1 1) (l a : ℝ) (c : Vec 1) (e : Est 1) : Prop :=
  Static e.filter ∧ e.filter.P.PosSemidef ∧ (e.maxCov = fun _ => .fin l) ∧ e.pos = volts c ∧ e.value = some (S.scaled 0 c) ∧ e.cov 0 0 ≤ l ∧
    (0 < e.cov 0 0 ∧ |e.estimate 0 - S.slope 0 0| ≤ |S.slope 0 0| * (a / (1 + a)) ∨ e.estimate 0 = S.slope 0 0)

/-- A tuning is completed if its estimator is near to the true gradient after the evaluation has been repeated. -/
theorem torn_core {S : Setup 1 1} (hS : S.Valid) {eigh : Eigh} (heigh : EighSpec eigh) {nullspace : Nullspace}
    (hnull : NullspaceSpec nullspace) {lstsq : Newton.Lstsq (Fin 1)} (hls : Newton.LstsqSpec lstsq) {ν : Int} {e : Est 1} {t : OneTuner (Est 1) 1}
    (hbase : Base S (none, ν) (fun _ => e) t) {c : Vec 1} {l : ℝ} (hl : 0 < l) {a : ℝ} (ha0 : 0 ≤ a) (hpos : ∀ y ∈ S.seen 0, 0 < y)
    (key : ∀ y ∈ S.seen 0, ∃ e₁, valuePart (volts c) (some (S.scaled 0 c)) (some y) e = [e₁] ∧
      ∀ y' ∈ S.seen 0, ∃ e₂, e₁.update (volts c) (S.scaled 0 c) y' true = (e₂, .ok ()) ∧ Near1 S l a c e₂) (N : Nat)
    (hN : ∀ tol, (S.row 0).tolerance = some tol → a ^ (N + 1) * |S.desired 0 - S.response 0 c / S.scale 0| < tol) :
    CompletesWithin S (kalmanI eigh nullspace) lstsq (1 + 3 * (N + 1))
      (leave (kalmanI eigh nullspace) valuePart lstsq S.outs (fresh t (volts c)) (.inside 6)) := by
  have hone : ∀ k : Fin 1, k = 0 := fun k => Subsingleton.elim _ _
  have hseen0 : ∀ k, ∀ y ∈ S.seen k, 0 < y := by
    intro k y hy
    obtain rfl := hone k
    exact hpos y hy
  set g := S.slope 0 0 with hg
  have hg0 : g ≠ 0 := by
    intro h0
    have h1 : S.grad 0 0 = 0 := by
      rcases div_eq_zero_iff.1 (show S.grad 0 0 / S.scale 0 = 0 from h0) with h2 | h2
      · exact h2
      · exact absurd h2 (hS.scale 0).2
    refine hS.independent.ne_zero 0 ?_
    funext j
    simp [hone j, h1]
  set ρ := |g| * (a / (1 + a)) with hρ
  have hg1 : 0 < |g| := abs_pos.2 hg0
  have hρ0 : 0 ≤ ρ := by positivity
  have hρσ : ρ < |g| := by
    have : a / (1 + a) < 1 := by rw [div_lt_one (by positivity)]; linarith
    rw [hρ]
    nlinarith
  have hratio : ρ / (|g| - ρ) = a := by
    rw [div_eq_iff (by linarith), hρ]
    field_simp
    ring
  have hσ : ∀ x : Fin 1 → ℝ, |g| * len x ≤ len (comb S.slope x) := by
    intro x
    have h1 : ∀ y : Fin 1 → ℝ, len y = |y 0| := fun y => by
      unfold len
      rw [Fin.sum_univ_one, Real.sqrt_sq_eq_abs]
    rw [h1, h1, ← abs_mul]
    simp only [comb, Fin.sum_univ_one]
    rw [mul_comm]
  obtain ⟨y, hy, hseven⟩ := seventh_state (I := kalmanI eigh nullspace) (parts := valuePart) hS.toSound hbase c
  let A : Fin 1 → Est 1 → Prop := fun _ e => ∃ l' χ, 0 < l' ∧ l' ≤ l ∧ l' * χ ≤ ρ ^ 2 ∧ Learns (S.slope 0) l (e.eps 0) χ e ∧
    MeasuredAt (S.scaled 0) c e ∧ ∀ v : Vec 1, ∑ i, v i ^ 2 = 1 → variance e.cov v ≤ l'
  have hA : ∀ e₂ : Est 1, Near1 S l a c e₂ → A 0 e₂ := by
    rintro e₂ ⟨hs, hP, hm, hp, hv, hc', hest⟩
    have heps : e₂.eps = fun _ => e₂.eps 0 := by
      funext i
      rw [hone i]
    have hvar : ∀ v : Vec 1, ∑ i, v i ^ 2 = 1 → variance e₂.cov v = e₂.cov 0 0 := by
      intro v hv
      rw [Fin.sum_univ_one] at hv
      rw [variance_one, hv, mul_one]
    rcases hest with ⟨hc, hest⟩ | hest
    · refine ⟨e₂.cov 0 0, surprise e₂ (S.slope 0), hc, hc', ?_, learns_surprise hs ?_ hm heps, ⟨hp, hv⟩, fun v hv => (hvar v hv).le⟩
      · rw [surprise_one, mul_div_cancel₀ _ hc.ne']
        exact sq_le_sq' (by linarith [neg_abs_le (e₂.estimate 0 - S.slope 0 0)]) (le_trans (le_abs_self _) hest)
      · have : e₂.cov = Matrix.diagonal fun _ => e₂.cov 0 0 := by
          funext i j
          rw [hone i, hone j, Matrix.diagonal_apply_eq]
        rw [this]
        exact Matrix.PosDef.diagonal fun _ => hc
    · refine ⟨l, 0, hl, le_rfl, by rw [mul_zero]; positivity, ⟨hs, hP, hm, heps, 0, ?_, by simp [variance]⟩, ⟨hp, hv⟩, fun v hv => (hvar v hv).le.trans hc'⟩
      rw [mulVec_zero, sub_eq_zero]
      funext j
      rw [show S.slope 0 = e₂.estimate from funext fun i => by rw [hone i]; exact hest.symm]
      unfold Est.estimate KG.grad wide
      congr 1
      exact Fin.ext (by simp)
  obtain ⟨e₁, h1, hup'⟩ := key y hy
  have hup : ∀ y' ∈ S.seen 0, ∃ e₂, (kalmanI eigh nullspace).update (volts c) (some (S.scaled 0 c)) (some y') e₁ = (e₂, .ok ()) ∧ A 0 e₂ := by
    intro y' hy'
    obtain ⟨e₂, h2, h3⟩ := hup' y' hy'
    exact ⟨e₂, h2, hA e₂ h3⟩
  obtain ⟨w, hw, hbw⟩ := hseven e₁ [] h1
  have hfirst : leave (kalmanI eigh nullspace) valuePart lstsq S.outs (fresh t (volts c)) (.inside 6) = fresh w (volts c) := by
    simp [leave, fresh, isComplete, hierarchy, hw]
  rw [hfirst]
  refine first_evaluation (A := A) hS.toSound hbw c ?_ _ ?_
  · intro k y' hy'
    obtain rfl := hone k
    exact hup y' hy'
  · intro E t' hAt hE
    obtain ⟨l', χ, hl', hle, hχ, hlearn, hat, hsure⟩ := hE 0
    refine bounded_phase (l := l) (l' := l') (ε := (E 0).eps 0) (χ := fun _ => χ) (σ := |g|) (ρ := ρ) hS one_ne_zero rfl heigh hnull hls hl' hle hσ hρ0 hρσ ?_ hseen0 N E c t' hAt ?_ ?_ ?_
    · rw [Fin.sum_univ_one]
      exact hχ
    · intro k
      obtain rfl := hone k
      exact ⟨hlearn, hat⟩
    · intro k
      obtain rfl := hone k
      exact hsure
    · intro k tol htol
      obtain rfl := hone k
      rw [hratio]
      refine lt_of_le_of_lt (le_of_eq ?_) (hN tol htol)
      congr 1
      unfold len
      rw [Fin.sum_univ_one, Real.sqrt_sq_eq_abs]
      rfl

/-- **C213**, one gate and one parameter: a tuning that is interrupted between the two assignments at the end of the update of its estimator is completed nevertheless,
although the estimator loses the true gradient (`torn_evaluation_refuted`).  The estimator knows the gradient before, and requests nothing.  Let `V` be its variance along the last
step, and let the variances of the measurements be between `r₀` and `r₁`.  Then every Newton step reduces what is missing at least by the
factor `a = V r₁ / ((V + r₁) r₀)`, which is `V / (V + r₁)` if all variances are equal.  So if `N + 1` such steps are enough, `1 + 3 (N + 1)` calls are enough, none of which raises.  Missing: more than one gate, several interruptions of this kind, and a
maximal step size. -/
theorem torn_one_gate_is_tuned_partial {S : Setup 1 1} (hS : S.Valid) {eigh : Eigh} (heigh : EighSpec eigh) {nullspace : Nullspace}
    (hnull : NullspaceSpec nullspace) {lstsq : Newton.Lstsq (Fin 1)} (hls : Newton.LstsqSpec lstsq) {ν : Int} {e : Est 1} {t : OneTuner (Est 1) 1}
    (hbase : Base S (none, ν) (fun _ => e) t) {b : ℝ} (hb : ∀ v, S.scaled 0 v = b + ∑ i, S.grad 0 i / S.scale 0 * v i) {p c : Vec 1}
    (hk : Kalman.Knows (fun i => S.grad 0 i / S.scale 0) b p e) {l : ℝ} (hl : 0 < l) (hlim : e.maxCov = fun _ => .fin l) (hcert : e.cov 0 0 ≤ l)
    {r₀ r₁ V a : ℝ} (hr₀ : 0 < r₀) (hr : ∀ y ∈ S.variances, r₀ ≤ y / (S.scale 0 * S.scale 0) ∧ y / (S.scale 0 * S.scale 0) ≤ r₁)
    (hV : V = e.cov 0 0 * (c 0 - p 0) ^ 2) (ha : a = V * r₁ / ((V + r₁) * r₀)) (N : Nat)
    (hN : ∀ tol, (S.row 0).tolerance = some tol → a ^ (N + 1) * |S.desired 0 - S.response 0 c / S.scale 0| < tol) :
    CompletesWithin S (kalmanI eigh nullspace) lstsq (1 + 3 * (N + 1))
      (leave (kalmanI eigh nullspace) valuePart lstsq S.outs (fresh t (volts c)) (.inside 6)) := by
  have hseen : ∀ y ∈ S.seen 0, r₀ ≤ y ∧ y ≤ r₁ := by
    rintro y ⟨v, hv, rfl⟩
    exact hr v hv
  have hseen0 : ∀ y ∈ S.seen 0, 0 < y := fun y hy => by linarith [(hseen y hy).1]
  have hr₁ : 0 < r₁ := by
    obtain ⟨y, hy, -⟩ := hS.evaluators c
    have := hr _ (hy 0)
    linarith
  have hcov0 : 0 ≤ e.cov 0 0 := by
    have := cov_nonneg hk.psd fun _ => 1
    rw [variance_one] at this
    simpa using this
  have hV0 : 0 ≤ V := by rw [hV]; positivity
  have ha0 : 0 ≤ a := by rw [ha]; positivity
  refine torn_core hS heigh hnull hls hbase hl ha0 hseen0 ?_ N hN
  intro y hy
  by_cases hstep : 1 / 10000000 ≤ Real.sqrt (∑ i, (c i - p i) ^ 2)
  · obtain ⟨e₁, -, h1, -⟩ := torn_one_gate hk c hstep (hseen0 y hy) (hseen0 y hy)
    rw [← hb c] at h1
    refine ⟨e₁, h1, fun y' hy' => ?_⟩
    obtain ⟨e₁', e₂, h1', h2, hs, hP, hm, hp, hv, hcov, hest⟩ := torn_one_gate hk c hstep (hseen0 y hy) (hseen0 y' hy')
    rw [← hb c] at h1' h2 hv
    obtain rfl : e₁ = e₁' := by
      rw [h1] at h1'
      exact (List.cons.inj h1').1
    rw [← hV] at hcov hest
    have hd0 : c 0 - p 0 ≠ 0 := by
      intro h0
      rw [Fin.sum_univ_one, h0] at hstep
      norm_num at hstep
    have hd2 : 0 < (c 0 - p 0) ^ 2 := by positivity
    have hy0 := hseen0 y hy
    have hy0' := hseen0 y' hy'
    set W := V * y / (V + y) with hW
    have hW0 : 0 ≤ W := by positivity
    have hWV : W ≤ V := by
      rw [hW, div_le_iff₀ (by positivity)]
      nlinarith
    have hWa : W ≤ a * y' := by
      have h3 : W ≤ V * r₁ / (V + r₁) := by
        rw [hW, div_le_div_iff₀ (by positivity) (by positivity)]
        nlinarith [(hseen y hy).2, mul_nonneg hV0 hV0]
      have h4 : a * r₀ = V * r₁ / (V + r₁) := by
        rw [ha]
        field_simp
      have := mul_le_mul_of_nonneg_left (hseen y' hy').1 ha0
      linarith
    refine ⟨e₂, h2, hs, hP, hm.trans hlim, hp, hv, ?_, ?_⟩
    · refine le_trans ?_ hcert
      have h3 : W * y' / (W + y') ≤ V := by
        rw [div_le_iff₀ (by positivity)]
        nlinarith [mul_nonneg hV0 hW0]
      rw [← hcov, hV] at h3
      exact le_of_mul_le_mul_right h3 hd2
    · have h5 : e₂.estimate 0 - S.slope 0 0 = -(W / (W + y')) * S.slope 0 0 := by
        rw [hest]
        have : S.grad 0 0 / S.scale 0 = S.slope 0 0 := rfl
        rw [this]
        field_simp
        ring
      rcases hW0.eq_or_lt with h0 | h0
      · right
        rw [← h0] at h5
        simp at h5
        linarith
      · left
        constructor
        · have : 0 < e₂.cov 0 0 * (c 0 - p 0) ^ 2 := by rw [hcov]; positivity
          exact (mul_pos_iff_of_pos_right hd2).1 this
        · rw [h5, abs_mul, abs_neg, abs_of_nonneg (by positivity : 0 ≤ W / (W + y')), mul_comm]
          refine mul_le_mul_of_nonneg_left ?_ (abs_nonneg _)
          rw [div_le_div_iff₀ (by positivity) (by positivity)]
          nlinarith
  · obtain ⟨e₁, h1, -⟩ := torn_short_step hk c (not_le.1 hstep) y y
    rw [← hb c] at h1
    refine ⟨e₁, h1, fun y' hy' => ?_⟩
    obtain ⟨e₁', h1', h2⟩ := torn_short_step hk c (not_le.1 hstep) y y'
    rw [← hb c] at h1' h2
    obtain rfl : e₁ = e₁' := by
      rw [h1] at h1'
      exact (List.cons.inj h1').1
    exact ⟨_, h2, hk.static, hk.psd, hlim, rfl, rfl, hcert, .inr (congrFun hk.exact_ 0)⟩

/-- **C213**, one gate and one parameter, without numbers: if the evaluator always reports the same variance, an interruption between the two assignments does not prevent that
the tuning is completed. -/
theorem torn_one_gate_is_tuned_finally_partial {S : Setup 1 1} (hS : S.Valid) {eigh : Eigh} (heigh : EighSpec eigh) {nullspace : Nullspace}
    (hnull : NullspaceSpec nullspace) {lstsq : Newton.Lstsq (Fin 1)} (hls : Newton.LstsqSpec lstsq) {ν : Int} {e : Est 1} {t : OneTuner (Est 1) 1}
    (hbase : Base S (none, ν) (fun _ => e) t) {b : ℝ} (hb : ∀ v, S.scaled 0 v = b + ∑ i, S.grad 0 i / S.scale 0 * v i) {p : Vec 1}
    (hk : Kalman.Knows (fun i => S.grad 0 i / S.scale 0) b p e) {l : ℝ} (hl : 0 < l) (hlim : e.maxCov = fun _ => .fin l) (hcert : e.cov 0 0 ≤ l)
    {y₀ : ℝ} (hy₀ : 0 < y₀) (hy : ∀ y ∈ S.variances, y = y₀) (c : Vec 1) :
    ∃ K, CompletesWithin S (kalmanI eigh nullspace) lstsq K
      (leave (kalmanI eigh nullspace) valuePart lstsq S.outs (fresh t (volts c)) (.inside 6)) := by
  set r := y₀ / (S.scale 0 * S.scale 0) with hr
  have hr0 : 0 < r := div_pos hy₀ (mul_self_pos.2 (hS.scale 0).2)
  set V := e.cov 0 0 * (c 0 - p 0) ^ 2 with hV
  have hcov0 : 0 ≤ e.cov 0 0 := by
    have := cov_nonneg hk.psd fun _ => 1
    rw [variance_one] at this
    simpa using this
  have hV0 : 0 ≤ V := by positivity
  set a := V * r / ((V + r) * r) with ha
  have ha0 : 0 ≤ a := by positivity
  have ha1 : a < 1 := by
    rw [ha, div_lt_one (by positivity)]
    nlinarith
  obtain ⟨N, hN⟩ : ∃ N : ℕ, ∀ tol, (S.row 0).tolerance = some tol → a ^ (N + 1) * |S.desired 0 - S.response 0 c / S.scale 0| < tol := by
    cases htol : (S.row 0).tolerance with
    | none => exact ⟨0, by simp⟩
    | some tol =>
      have h1 : Filter.Tendsto (fun N : ℕ => a ^ N) Filter.atTop (nhds 0) := tendsto_pow_atTop_nhds_zero_of_lt_one ha0 ha1
      have h2 := ((Filter.tendsto_add_atTop_iff_nat 1).2 h1).mul_const |S.desired 0 - S.response 0 c / S.scale 0|
      rw [zero_mul] at h2
      obtain ⟨N, hN⟩ := (h2.eventually (gt_mem_nhds (hS.tolerance 0 tol htol))).exists
      refine ⟨N, fun tol' h => ?_⟩
      cases h
      exact hN
  exact ⟨_, torn_one_gate_is_tuned_partial hS heigh hnull hls hbase hb hk hl hlim hcert hr0
    (fun y h => by rw [hy y h]; exact ⟨le_rfl, le_rfl⟩) hV ha N hN⟩

/-- **C213**, one gate and one parameter: whatever calls of `iterate` were made, and wherever they were interrupted but for the place between the two assignments, a call that is
interrupted there does not prevent that the tuning is completed either.  An estimator that has not measured yet has no position.  Missing: more than one gate, several interruptions
between the two assignments, and a maximal step size. -/
theorem torn_after_calls_is_tuned_partial {S : Setup 1 1} (hS : S.Valid) {eigh : Eigh} (heigh : EighSpec eigh) {nullspace : Nullspace}
    (hnull : NullspaceSpec nullspace) {lstsq : Newton.Lstsq (Fin 1)} (hls : Newton.LstsqSpec lstsq) {y₀ : ℝ} (hy₀ : 0 < y₀)
    (hy : ∀ y ∈ S.variances, y = y₀) (c : Vec 1) {t : OneTuner (Est 1) 1} {l : ℝ} (hl : 0 < l) (ht : KalmanInitial S l t) (hmax : t.maxStep = none)
    (hnew : ∀ e ∈ t.solver.ests, e.value = none → e.pos = fun _ => none) (calls : List StoppedCall) :
    ∃ K, CompletesWithin S (kalmanI eigh nullspace) lstsq K
      (leave (kalmanI eigh nullspace) valuePart lstsq S.outs
        (leaves (kalmanI eigh nullspace) filterPart lstsq S.outs (fresh t (volts c)) calls) (.inside 6)) := by
  have hpos : ∀ y ∈ S.variances, 0 < y := fun y h => by rw [hy y h]; exact hy₀
  obtain ⟨E, hests, hE⟩ := ht.ests
  have hbase : Base S (none, t.maxNumber) E t :=
    ⟨ht.target, hests, ht.gates, ht.index, hmax, rfl, ht.queued, ht.lastIndex⟩
  have hys : ∀ k, ∀ y ∈ S.seen k, 0 < y := by
    rintro k y ⟨v, hv, rfl⟩
    exact div_pos (hpos v hv) (mul_self_pos.2 (hS.scale k).2)
  let A₀ : Fin 1 → Est 1 → Prop := fun k e => Certain (fun i => S.grad k i / S.scale k) l e ∧
    ((e.value = none ∧ e.pos = fun _ => none) ∨ Measured (S.scaled k) e)
  have hweak : ∀ k e, A₀ k e → e.value = none ∨ Measured (S.scaled k) e := fun k e h => h.2.imp (fun h => h.1) id
  have hup : ∀ k e, A₀ k e → ∀ q, ∀ y ∈ S.seen k,
      ∃ e', (kalmanI eigh nullspace).update (volts q) (some (S.scaled k q)) (some y) e = (e', .ok ()) ∧
        (Certain (fun i => S.grad k i / S.scale k) l e' ∧ Measured (S.scaled k) e') :=
    fun k e h q y hy' => certain_update hS.affine h.1 (hweak k e h) q (hys k y hy')
  have hle : ∀ k e, (Certain (fun i => S.grad k i / S.scale k) l e ∧ Measured (S.scaled k) e) → A₀ k e :=
    fun k e h => ⟨h.1, .inr h.2⟩
  have hparts : ∀ k e, A₀ k e → ∀ q, ∀ y ∈ S.seen k, ∀ e' ∈ filterPart (volts q) (some (S.scaled k q)) (some y) e, A₀ k e' := by
    intro k e h q y hy' e' he'
    have h1 := filterPart_certain hS.affine h.1 (hweak k e h) q (hys k y hy') e' he'
    refine ⟨h1.1, .inr ?_⟩
    rcases h1.2 with h2 | h2
    · exfalso
      unfold filterPart at he'
      split at he'
      · cases he'
      · rename_i hsome
        split at he'
        · cases he'
        · simp only [List.mem_cons, List.not_mem_nil, or_false] at he'
          rw [he'] at h2
          simp only at h2
          rw [hsome] at h2
          cases h2
    · exact h2
  have hA := kalman_keeps hS one_ne_zero hpos heigh hnull hl
  have hsafe : Safe S (none, t.maxNumber) A₀ (fun k e => Certain (fun i => S.grad k i / S.scale k) l e ∧ Measured (S.scaled k) e) (fresh t (volts c)) := by
    refine ⟨E, c, rfl, .inl rfl, .inl ⟨rfl, rfl, hbase, fun k => ⟨(hE k).1, ?_⟩⟩⟩
    rcases (hE k).2 with h | h
    · refine .inl ⟨h, hnew _ ?_ h⟩
      rw [hests]
      exact (List.mem_ofFn' _ _).2 ⟨k, rfl⟩
    · exact .inr h
  have hsafe' := hsafe.leaves hS rfl (lstsq := lstsq) hls hA hup hle hparts calls
  set s := leaves (kalmanI eigh nullspace) filterPart lstsq S.outs (fresh t (volts c)) calls with hs
  by_cases hc : isComplete (hierarchy (kalmanI eigh nullspace) lstsq S.outs) s = false ∧ s.pending = none ∧ s.status = false
  · obtain ⟨E, q, hq, -, hcase⟩ := hsafe'
    rcases hcase with ⟨h0, h1, hb, hE⟩ | ⟨-, h1, -⟩ | ⟨h0, -⟩
    · have hst : s = fresh s.tuners (volts q) := by
        rw [← hq]
        unfold fresh
        rw [← h0, ← h1, ← hc.2.1]
      rw [hst]
      have hEe : E = fun _ => E 0 := funext fun k => by rw [Subsingleton.elim k 0]
      rw [hEe] at hb
      have hcert : (E 0).cov 0 0 ≤ l := by
        have := (hE 0).1.certain (fun _ => 1) (by simp)
        rw [variance_one] at this
        simpa using this
      rcases (hE 0).2 with ⟨hv, hp⟩ | ⟨p, hp, hv⟩
      · refine ⟨_, torn_core hS heigh hnull hls hb (c := q) hl (le_refl 0) (fun y h => hys 0 y h) (fun y _ => ?_) 0 (fun tol htol => ?_)⟩
        · obtain ⟨e₁, h3, -⟩ := torn_first_update hv hp q (S.scaled 0 q) y y
          refine ⟨e₁, h3, fun y' _ => ?_⟩
          obtain ⟨e₁', h3', h4⟩ := torn_first_update hv hp q (S.scaled 0 q) y y'
          obtain rfl : e₁ = e₁' := by
            rw [h3] at h3'
            exact (List.cons.inj h3').1
          exact ⟨_, h4, (hE 0).1.static, (hE 0).1.psd, (hE 0).1.limit, rfl, rfl, hcert, .inr (congrFun (hE 0).1.gradient 0)⟩
        · simpa using hS.tolerance 0 tol htol
      · obtain ⟨b, hb'⟩ := Setup.scaled_affine hS.affine 0
        refine torn_one_gate_is_tuned_finally_partial hS heigh hnull hls hb hb' (p := p)
          ⟨(hE 0).1.static, (hE 0).1.psd, hp, ?_, (hE 0).1.gradient⟩ hl (hE 0).1.limit hcert hy₀ hy q
        rw [hv, hb' p]
    · rw [hc.2.2] at h1
      cases h1
    · have := hc.1
      simp [isComplete, hierarchy, h0] at this
  · have h1 : leave (kalmanI eigh nullspace) valuePart lstsq S.outs s (.inside 6) =
        leaves (kalmanI eigh nullspace) filterPart lstsq S.outs s [.whole (.ok ())] := by
      simp only [leave, leaves, List.foldl_cons, List.foldl_nil]
      rw [if_neg hc]
    rw [h1]
    exact ⟨5, (hsafe'.leaves hS rfl (lstsq := lstsq) hls hA hup hle hparts [.whole (.ok ())]).completes hS rfl hls hA hup hle⟩

/-! ### A tuner that meets the hypotheses -/

/-- It knows the gradient of `oneGateSetup` (1/2 in units of the target), with the variance 1, and has measured the value 1/4 at the voltage 0. -/
noncomputable def oneGateEst : Est 1 :=
  ⟨KG.new none (some fun _ => 1 / 2) (some 1) none none 1, fun _ => some 0, some (1 / 4), fun _ => .fin 1, fun _ => 1⟩

/-- A tuner without maximal step size with this estimator. -/
noncomputable def oneGateKalman : OneTuner (Est 1) 1 :=
  ⟨⟨oneGateSetup.target, [oneGateEst], [0], fun _ => none, [("x", none)]⟩, [], fun _ => none, [], [], false, [], none, 5, 0⟩

/-- The hypotheses, with a step from the voltage 0 to the voltage 8: the estimator loses the gradient, and the tuning is completed. -/
example : ∃ b : ℝ, oneGateSetup.Valid ∧ Base oneGateSetup (none, 5) (fun _ => oneGateEst) oneGateKalman ∧
    (∀ v, oneGateSetup.scaled 0 v = b + ∑ i, oneGateSetup.grad 0 i / oneGateSetup.scale 0 * v i) ∧
    Kalman.Knows (fun i => oneGateSetup.grad 0 i / oneGateSetup.scale 0) b (fun _ => 0) oneGateEst ∧
    (oneGateEst.maxCov = fun _ => .fin 1) ∧ 0 < oneGateEst.cov 0 0 ∧ oneGateEst.cov 0 0 ≤ 1 ∧ (∀ y ∈ oneGateSetup.variances, y = 1) ∧
    1 / 10000000 ≤ Real.sqrt (∑ i : Fin 1, ((fun _ => 8 : Vec 1) i - 0) ^ 2) ∧
    0 < variance oneGateEst.cov (fun i => (fun _ => 8 : Vec 1) i - 0) ∧ oneGateSetup.scaled 0 (fun _ => 8) ≠ oneGateSetup.scaled 0 (fun _ => 0) := by
  have hc : oneGateEst.cov 0 0 = 1 := by simp [oneGateEst, Est.cov, KG.new]
  refine ⟨1 / 4, oneGateSetup_valid, ⟨rfl, rfl, rfl, rfl, rfl, rfl, rfl, by simp [oneGateKalman, Series.index]⟩, ?_, ⟨⟨rfl, rfl, rfl⟩, ?_, rfl, ?_, ?_⟩, rfl, ?_, ?_, ?_, ?_, ?_, ?_⟩
  · intro v
    simp [oneGateSetup, Setup.scaled]
    ring
  · exact Matrix.PosSemidef.one
  · simp [oneGateEst]
  · funext i
    rw [Subsingleton.elim i 0]
    simp [oneGateEst, Est.estimate, KG.grad, KG.new, oneGateSetup]
    norm_num
  · rw [hc]; exact one_pos
  · rw [hc]
  · intro y hy
    exact hy
  · apply Real.le_sqrt_of_sq_le
    simp
    norm_num
  · rw [variance_one, hc]
    norm_num
  · simp [oneGateSetup, Setup.scaled]
    norm_num

/-- The hypotheses of `torn_after_calls_is_tuned_partial`, also with an estimator that has not measured yet. -/
example : KalmanInitial oneGateSetup 1 oneGateKalman ∧
    KalmanInitial oneGateSetup 1 { oneGateKalman with solver := { oneGateKalman.solver with ests := [{ oneGateEst with value := none, pos := fun _ => none }] } } := by
  have hc : Certain (fun i => oneGateSetup.grad 0 i / oneGateSetup.scale 0) 1 oneGateEst := by
    refine ⟨⟨rfl, rfl, rfl⟩, ?_, Matrix.PosSemidef.one, rfl, fun v hv => ?_⟩
    · funext i
      rw [Subsingleton.elim i 0]
      simp [oneGateEst, Est.estimate, KG.grad, KG.new, oneGateSetup]
      norm_num
    · rw [Fin.sum_univ_one] at hv
      rw [variance_one, hv]
      simp [oneGateEst, Est.cov, KG.new]
  have hz : ∀ k : Fin 1, k = 0 := fun k => Subsingleton.elim _ _
  refine ⟨⟨rfl, ⟨fun _ => oneGateEst, rfl, fun k => ?_⟩, rfl, rfl, by simp [oneGateKalman, Series.index], rfl⟩,
    ⟨rfl, ⟨fun _ => { oneGateEst with value := none, pos := fun _ => none }, rfl, fun k => ?_⟩, rfl, rfl, by simp [oneGateKalman, Series.index], rfl⟩⟩
  · rw [hz k]
    refine ⟨hc, .inr ⟨fun _ => 0, rfl, ?_⟩⟩
    simp [oneGateEst, oneGateSetup]
  · rw [hz k]
    exact ⟨⟨hc.static, hc.gradient, hc.psd, hc.limit, hc.certain⟩, .inl rfl⟩

end Qtune.EndToEnd
