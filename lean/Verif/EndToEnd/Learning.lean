import Verif.EndToEnd.Contraction
import Verif.EndToEnd.PropsKalman
import Verif.Kalman.PropsRequests

/-! # Kalman estimators that learn the gradients: helper lemmas -/

namespace Qtune.EndToEnd

open Matrix Qtune.Tuner Qtune.Gradient Qtune.Autotuner Qtune.Kalman

variable {n m : Nat}

theorem flat_const (g : Vec n) : flat (fun _ : Fin 1 => g) = wide g := by
  funext j
  show g j.modNat = g (j.cast (one_mul n))
  congr 1
  apply Fin.ext
  have h : j.1 < n := by have := j.2; omega
  simp [Fin.modNat, Nat.mod_eq_of_lt h]

/-- One exact measurement along `d`. -/
theorem filter_learns {f : KG 1 n} (hs : Static f) (hP : f.P.PosSemidef) (g d : Vec n) {y : ℝ} (hy : 0 < y) :
    ∃ f', f.update d (fun _ => ∑ i, g i * d i) (some (y • 1)) none true = (f', .ok ()) ∧ Static f' ∧
      f'.P.PosSemidef ∧ (∀ v, variance f'.P v ≤ variance f.P v) ∧
      ∀ w, f.x - wide g = f.P *ᵥ w → f'.x - wide g = f'.P *ᵥ w := by
  let call : Call 1 n := ⟨d, fun _ => ∑ i, g i * d i, some (y • (1 : Matrix (Fin 1) (Fin 1) ℝ)), none, true⟩
  have hR : ((some (y • (1 : Matrix (Fin 1) (Fin 1) ℝ))).getD f.R).PosDef := scalar_posDef hy
  have hup := (update_static hs call rfl).trans (correct_ok hP hR _ _)
  obtain ⟨f', hrun, hP', -, herr, -⟩ := run_invariant (G := fun _ => g) [call] f hs hP (by
    intro c hc
    rw [List.mem_singleton] at hc
    subst hc
    exact ⟨fun _ => rfl, hR, rfl⟩)
  have hup' : f.update d (fun _ => ∑ i, g i * d i) (some (y • 1)) none true = (f', .ok ()) := by
    unfold Kalman.run at hrun
    rw [hup] at hrun
    simp only [Kalman.run] at hrun
    have : f.update d (fun _ => ∑ i, g i * d i) (some (y • 1)) none true = _ := hup
    rw [this]
    exact Prod.ext (Except.ok.inj hrun) rfl
  obtain ⟨f'', hf'', hdec, -⟩ := correction_decreases_variance f hP call.diff call.values call.R hR
  have hsame : f'' = f' := by
    have h1 : f.update call.diff call.values call.R none true = (f'', .ok ()) := by
      rw [← hf'']
      exact (update_static hs call rfl).trans (update_static hs { call with predict := false } rfl).symm
    exact (Prod.mk.inj (h1.symm.trans hup')).1
  subst hsame
  refine ⟨f'', hup', ?_, hP', hdec, fun w hw => ?_⟩
  · obtain ⟨f₃, hf₃, hst, -, -⟩ := total_update hs hP d (fun _ => ∑ i, g i * d i) hy
    have : f₃ = f'' := (Prod.mk.inj (hf₃.symm.trans hup')).1
    rw [← this]
    exact hst
  · rw [← flat_const] at hw ⊢
    exact herr w hw

/-- A Kalman estimator without dynamics, with limit `l` and step size `ε`; its error is `P w` with
`wᵀ P w ≤ χ`. -/
structure Learns (g : Vec n) (l ε χ : ℝ) (e : Est n) : Prop where
  static : Static e.filter
  psd : e.filter.P.PosSemidef
  limit : e.maxCov = fun _ => .fin l
  eps : e.eps = fun _ => ε
  error : ∃ w, e.filter.x - wide g = e.filter.P *ᵥ w ∧ variance e.filter.P w ≤ χ

/-- The reference point of the estimator is `q`, with the exact value. -/
def MeasuredAt (f : Vec n → ℝ) (q : Vec n) (e : Est n) : Prop := e.pos = volts q ∧ e.value = some (f q)

theorem MeasuredAt.measured {f : Vec n → ℝ} {q : Vec n} {e : Est n} (h : MeasuredAt f q e) : Measured f e :=
  ⟨q, h.1, h.2⟩

theorem Learns.steady {g : Vec n} {l ε χ : ℝ} {e : Est n} (h : Learns g l ε χ e) {p : Vec n} (hp : e.pos = volts p) :
    Steady l ε e := ⟨h.static, h.psd, h.limit, h.eps, p, hp⟩

theorem learn_update {g : Vec n} {l ε χ : ℝ} {e : Est n} (h : Learns g l ε χ e) {f : Vec n → ℝ} (hf : IsAffine f g)
    (hm : e.value = none ∨ Measured f e) (q : Vec n) {y : ℝ} (hy : 0 < y) :
    ∃ e', e.update (volts q) (f q) y true = (e', .ok ()) ∧ Learns g l ε χ e' ∧ MeasuredAt f q e' ∧
      ∀ v : Vec n, variance e'.cov v ≤ variance e.cov v := by
  rcases hm with hnone | ⟨p, hp, hv⟩
  · exact ⟨{ e with value := some (f q), pos := volts q }, by simp [Est.update, hnone],
      ⟨h.static, h.psd, h.limit, h.eps, h.error⟩, ⟨rfl, rfl⟩, fun v => le_refl _⟩
  · unfold Est.update
    rw [hv]
    simp only [hp]
    have hdiff : ∀ i, (volts q i).sub (volts p i) = some (q i - p i) := fun i => rfl
    simp only [hdiff, Option.getD_some]
    split_ifs with hshort hex
    · exact ⟨_, rfl, ⟨h.static, h.psd, h.limit, h.eps, h.error⟩, ⟨rfl, rfl⟩, fun v => le_refl _⟩
    · obtain ⟨i, hi⟩ := hex
      cases hi
    · obtain ⟨f', hf', hs', hP', hdec, herr⟩ := filter_learns h.static h.psd g (fun i => q i - p i) hy
      have hval : f q - f p = ∑ i, g i * (q i - p i) := hf.sub q p
      rw [hval, hf']
      obtain ⟨w, hw, hwχ⟩ := h.error
      refine ⟨_, rfl, ⟨hs', hP', h.limit, h.eps, w, herr w hw, (hdec w).trans hwχ⟩, ⟨rfl, by simp [hval]⟩,
        fun v => ?_⟩
      rw [cov_variance, cov_variance]
      exact hdec _

/-- The error of an estimator whose variances are at most `l`, for example because it requests nothing. -/
theorem Learns.close {g : Vec n} {l' l ε χ : ℝ} (hl : 0 < l) {e : Est n} (h : Learns g l' ε χ e)
    (hc : ∀ v : Vec n, ∑ i, v i ^ 2 = 1 → variance e.cov v ≤ l) :
    ∑ i, (e.estimate i - g i) ^ 2 ≤ l * χ := by
  obtain ⟨w, hw, hχ⟩ := h.error
  set d := e.filter.x - wide g with hd
  have hsum : ∑ i, (e.estimate i - g i) ^ 2 = d ⬝ᵥ d := by
    rw [← wide_sum]
    unfold dotProduct
    refine Finset.sum_congr rfl fun j _ => ?_
    have : e.estimate (j.cast (one_mul n)) = e.filter.x j := by
      have h1 := congrFun (flat_grad e.filter) j
      rw [← h1]
      unfold flat Est.estimate
      congr 1
      · exact Subsingleton.elim _ _
      · apply Fin.ext
        have h : j.1 < n := by have := j.2; omega
        simp [Fin.modNat, Nat.mod_eq_of_lt h]
    simp only [wide, hd, Pi.sub_apply, this]
    ring
  rw [hsum]
  -- the variance in the direction of the error
  have hdir : variance e.filter.P d ≤ l * (d ⬝ᵥ d) := by
    have h0 : 0 ≤ d ⬝ᵥ d := by rw [← hsum]; exact Finset.sum_nonneg fun _ _ => sq_nonneg _
    rcases h0.eq_or_lt with h0 | h0
    · have : d = 0 := by
        have := dotProduct_self_eq_zero.1 h0.symm
        exact this
      rw [this]
      simp [variance]
    · set u : Vec n := fun i => d (i.cast (one_mul n).symm) / Real.sqrt (d ⬝ᵥ d) with hu
      have hs : Real.sqrt (d ⬝ᵥ d) ^ 2 = d ⬝ᵥ d := Real.sq_sqrt h0.le
      have hs0 : 0 < Real.sqrt (d ⬝ᵥ d) := Real.sqrt_pos.2 h0
      have hwu : wide u = (Real.sqrt (d ⬝ᵥ d))⁻¹ • d := by
        funext j
        simp [wide, hu, div_eq_inv_mul]
      have hunit : ∑ i, u i ^ 2 = 1 := by
        rw [← wide_sum]
        have : ∀ j, wide (fun i => u i ^ 2) j = (Real.sqrt (d ⬝ᵥ d) ^ 2)⁻¹ * (d j * d j) := fun j => by
          simp only [wide, hu, Fin.cast_cast, Fin.cast_eq_self]
          field_simp
        rw [Finset.sum_congr rfl fun j _ => this j, ← Finset.mul_sum, hs]
        exact inv_mul_cancel₀ h0.ne'
      have := hc u hunit
      rw [cov_variance, variance_eq] at this
      have e1 : (fun j : Fin (1 * n) => u (j.cast (one_mul n))) = wide u := rfl
      rw [e1, hwu, mulVec_smul, smul_dotProduct, dotProduct_smul, ← variance_eq, smul_eq_mul, smul_eq_mul,
        ← mul_assoc, ← mul_inv, ← sq, hs, inv_mul_le_iff₀ h0] at this
      linarith
  clear_value d
  have hnn := h.psd.dotProduct_mulVec_nonneg (d - l • w)
  simp only [star_trivial] at hnn
  have hsymm : w ⬝ᵥ (e.filter.P *ᵥ d) = d ⬝ᵥ (e.filter.P *ᵥ w) := by
    rw [dotProduct_mulVec, ← mulVec_transpose, symm_of_posSemidef h.psd, dotProduct_comm]
  simp only [mulVec_sub, mulVec_smul, dotProduct_sub, sub_dotProduct, dotProduct_smul, smul_dotProduct, hsymm] at hnn
  rw [← hw] at hnn
  rw [variance_eq] at hdir hχ
  rw [← hw] at hχ
  simp only [smul_eq_mul] at hnn
  have h2 := mul_le_mul_of_nonneg_left hχ (mul_pos hl hl).le
  have h3 : l * (d ⬝ᵥ d) ≤ l * (l * χ) := by nlinarith
  exact le_of_mul_le_mul_left h3 hl

end Qtune.EndToEnd
