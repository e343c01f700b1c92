import Verif.Kalman.Props
import Mathlib.Analysis.SpecificLimits.Basic
import Mathlib.Algebra.Order.BigOperators.Ring.Finset
import Mathlib.Topology.Algebra.Order.LiminfLimsup
import Mathlib.Analysis.Real.Sqrt

/-! # The estimation error of the Kalman filter for exact measurements of an affine response -/

namespace Qtune.Kalman

open Matrix

variable {m n : Nat}

theorem update_static {f : KG m n} (hs : Static f) (c : Call m n) (hQ : c.Q = none) :
    f.update c.diff c.values c.R c.Q c.predict = f.correct c.values c.R (matrixH m c.diff) := by
  unfold KG.update
  have : (if c.predict = true then f.predict c.Q else f) = f := by
    split
    · unfold Filter.predict
      rw [hQ]
      obtain ⟨hF, hQ', ha⟩ := hs
      rcases f with ⟨x, P, F, Q, R, a⟩
      simp only at hF hQ' ha
      subst hF hQ' ha
      simp
    · rfl
  rw [this]

/-- The sum of `Hᵀ R⁻¹ H`. -/
noncomputable def information (R₀ : Matrix (Fin m) (Fin m) ℝ) (cs : List (Call m n)) :
    Matrix (Fin (m * n)) (Fin (m * n)) ℝ :=
  (cs.map fun c => (matrixH m c.diff)ᵀ * (c.R.getD R₀)⁻¹ * matrixH m c.diff).sum

theorem information_quad (R₀ : Matrix (Fin m) (Fin m) ℝ) (cs : List (Call m n)) (v : Fin (m * n) → ℝ) :
    v ⬝ᵥ (information R₀ cs *ᵥ v) = excitation R₀ cs v := by
  unfold information excitation
  induction cs with
  | nil => simp
  | cons c cs ih =>
    simp only [List.map_cons, List.sum_cons, add_mulVec, dotProduct_add, ih]
    congr 1
    rw [variance_eq]
    have := quad_conj (c.R.getD R₀)⁻¹ (matrixH m c.diff)ᵀ v
    rw [transpose_transpose] at this
    exact this

theorem x_error (f : KG m n) (G : Matrix (Fin m) (Fin n) ℝ) : flat (f.grad - G) = f.x - flat G := by
  rw [← flat_grad f]
  rfl

theorem matrixH_flat (G : Matrix (Fin m) (Fin n) ℝ) (d : Fin n → ℝ) :
    matrixH m d *ᵥ flat G = fun k => ∑ i, G k i * d i := by
  have h := measurement_matrix (⟨flat G, 1, 1, 1, 1, 1⟩ : KG m n) d
  have hg : KG.grad (⟨flat G, 1, 1, 1, 1, 1⟩ : KG m n) = G := by
    funext k i
    unfold KG.grad flat
    have hi := i.2
    have hn : 0 < n := by omega
    have h1 : (⟨k.1 * n + i.1, flat_lt k i⟩ : Fin (m * n)).divNat = k := by
      apply Fin.ext
      simp only [Fin.coe_divNat]
      rw [Nat.mul_comm, Nat.mul_add_div hn, Nat.div_eq_of_lt hi, Nat.add_zero]
    have h2 : (⟨k.1 * n + i.1, flat_lt k i⟩ : Fin (m * n)).modNat = i := by
      apply Fin.ext
      simp only [Fin.coe_modNat]
      rw [Nat.mul_comm, Nat.mul_add_mod, Nat.mod_eq_of_lt hi]
    show G _ _ = G k i
    rw [h1, h2]
  rw [hg] at h
  exact h

theorem run_invariant {G : Matrix (Fin m) (Fin n) ℝ} (cs : List (Call m n)) :
    ∀ (f : KG m n) (_ : Static f) (_ : f.P.PosSemidef) (_ : ∀ c ∈ cs, ExactCall G f.R c),
    ∃ f', run cs f = .ok f' ∧ f'.P.PosSemidef ∧ f'.R = f.R ∧
      (∀ w, f.x - flat G = f.P *ᵥ w → f'.x - flat G = f'.P *ᵥ w) ∧
      ∀ A, A * f.P = 1 → (A + information f.R cs) * f'.P = 1 := by
  induction cs with
  | nil =>
    intro f _ hP _
    exact ⟨f, rfl, hP, rfl, fun w h => h, fun A h => by simpa [information] using h⟩
  | cons c cs ih =>
    intro f hs hP hcs
    have hc := hcs c (by simp)
    set H := matrixH m c.diff with hH
    set R := c.R.getD f.R with hR
    have hok := correct_ok hP hc.noise H c.values
    set f₁ : KG m n := { f with
      x := f.x + f.gain (c.R.getD f.R) H *ᵥ (c.values - H *ᵥ f.x)
      P := f.P - f.P * Hᵀ * (f.innovation (c.R.getD f.R) H)⁻¹ * H * f.P } with hf₁
    have hP₁ : f₁.P.PosSemidef := by
      have := correct_posSemidef hP hc.noise.posSemidef H c.values
      rw [hok] at this
      exact this
    obtain ⟨f', hrun, hP', hR', herr, hinf⟩ := ih f₁ ⟨hs.F, hs.Q, hs.alpha⟩ hP₁
      (fun c' hc' => hcs c' (by simp [hc']))
    have hS := innovation_posDef hP hc.noise H
    have hdet : IsUnit (f.innovation R H).det := (isUnit_iff_isUnit_det _).1 hS.isUnit
    set S := f.innovation R H with hSdef
    refine ⟨f', ?_, hP', hR', fun w hw => herr w ?_, fun A hA => ?_⟩
    · unfold run
      rw [update_static hs c hc.process, hok]
      exact hrun
    · have hz : c.values = H *ᵥ flat G := by
        rw [matrixH_flat]
        funext k
        exact hc.values k
      show f.x + f.gain R H *ᵥ (c.values - H *ᵥ f.x) - flat G =
        (f.P - f.P * Hᵀ * S⁻¹ * H * f.P) *ᵥ w
      have hgain : f.gain R H = f.P * Hᵀ * S⁻¹ := rfl
      have h1 : c.values - H *ᵥ f.x = - (H *ᵥ (f.P *ᵥ w)) := by
        rw [hz, ← hw, mulVec_sub]
        abel
      rw [h1, hgain, sub_mulVec, ← hw, mulVec_neg]
      have h2 : (f.P * Hᵀ * S⁻¹ * H * f.P) *ᵥ w = (f.P * Hᵀ * S⁻¹) *ᵥ (H *ᵥ (f.P *ᵥ w)) := by
        rw [mulVec_mulVec, mulVec_mulVec, Matrix.mul_assoc (f.P * Hᵀ * S⁻¹) H f.P]
      rw [h2, ← hw]
      abel
    · have hRdet : IsUnit R.det := (isUnit_iff_isUnit_det _).1 hc.noise.isUnit
      have hstep : (A + Hᵀ * R⁻¹ * H) * f₁.P = 1 := by
        show (A + Hᵀ * R⁻¹ * H) * (f.P - f.P * Hᵀ * S⁻¹ * H * f.P) = 1
        have hSeq : H * f.P * Hᵀ = S - R := by
          rw [hSdef, Filter.innovation, ← Matrix.mul_assoc, add_sub_cancel_right]
        have e1 : A * (f.P * Hᵀ * S⁻¹ * H * f.P) = Hᵀ * S⁻¹ * H * f.P := by
          rw [show A * (f.P * Hᵀ * S⁻¹ * H * f.P) = (A * f.P) * (Hᵀ * S⁻¹ * H * f.P) by
            simp only [Matrix.mul_assoc], hA, Matrix.one_mul]
        have e2 : Hᵀ * R⁻¹ * H * (f.P * Hᵀ * S⁻¹ * H * f.P) =
            Hᵀ * R⁻¹ * H * f.P - Hᵀ * S⁻¹ * H * f.P := by
          rw [show Hᵀ * R⁻¹ * H * (f.P * Hᵀ * S⁻¹ * H * f.P) =
            Hᵀ * R⁻¹ * (H * f.P * Hᵀ) * S⁻¹ * H * f.P by simp only [Matrix.mul_assoc], hSeq]
          have e3 : Hᵀ * R⁻¹ * (S - R) * S⁻¹ = Hᵀ * R⁻¹ - Hᵀ * S⁻¹ := by
            rw [Matrix.mul_sub, Matrix.sub_mul, Matrix.mul_assoc (Hᵀ * R⁻¹) S S⁻¹,
              mul_nonsing_inv S hdet, Matrix.mul_one, Matrix.mul_assoc Hᵀ R⁻¹ R,
              nonsing_inv_mul R hRdet, Matrix.mul_one]
          rw [e3, Matrix.sub_mul, Matrix.sub_mul]
        rw [Matrix.add_mul, Matrix.mul_sub, Matrix.mul_sub, hA, e1, e2]
        abel
      have := hinf _ hstep
      have hinfo : information f.R (c :: cs) = Hᵀ * R⁻¹ * H + information f₁.R cs := by
        simp [information, hH, hR, hf₁]
      rw [hinfo, ← add_assoc]
      exact this

/-- **C45** (a).  With exact measurements of an affine response with gradient `G` no call raises, the
true gradient is a fixed point, and the error after any calls is `P_k P_0⁻¹` times the initial
error. -/
theorem kalman_error (f : KG m n) (hs : Static f) (G : Matrix (Fin m) (Fin n) ℝ) (cs : List (Call m n))
    (hcs : ∀ c ∈ cs, ExactCall G f.R c) (hP : f.P.PosSemidef) :
    ∃ f', run cs f = .ok f' ∧ (f.grad = G → f'.grad = G) ∧
      (f.P.PosDef → flat (f'.grad - G) = (f'.P * f.P⁻¹) *ᵥ flat (f.grad - G)) := by
  obtain ⟨f', hrun, -, -, herr, -⟩ := run_invariant cs f hs hP hcs
  refine ⟨f', hrun, fun h => ?_, fun hpd => ?_⟩
  · have h0 : f.x - flat G = f.P *ᵥ 0 := by
      rw [← x_error, h, mulVec_zero]
      funext j
      simp [flat]
    have h1 := herr 0 h0
    rw [mulVec_zero, ← x_error] at h1
    funext k i
    have := congrFun h1 (finProdFinEquiv (k, i))
    have hdiv : (finProdFinEquiv (k, i)).divNat = k := by
      have := finProdFinEquiv.symm_apply_apply (k, i)
      exact congrArg Prod.fst this
    have hmod : (finProdFinEquiv (k, i)).modNat = i := by
      have := finProdFinEquiv.symm_apply_apply (k, i)
      exact congrArg Prod.snd this
    simp only [flat, hdiv, hmod, Matrix.sub_apply, Pi.zero_apply] at this
    linarith
  · have hdet : IsUnit f.P.det := (isUnit_iff_isUnit_det _).1 hpd.isUnit
    rw [x_error, x_error]
    rw [← mulVec_mulVec]
    refine herr _ ?_
    rw [mulVec_mulVec, mul_nonsing_inv _ hdet, one_mulVec]

/-- **C45** (b).  If the calls have probed every direction with strength at least `c`, then the
squared length of the error is at most `|P_0⁻¹ e_0|² / c²`. -/
theorem kalman_error_bound (f : KG m n) (hs : Static f) (G : Matrix (Fin m) (Fin n) ℝ)
    (cs : List (Call m n)) (hcs : ∀ c ∈ cs, ExactCall G f.R c) (hP : f.P.PosDef) (c : ℝ) (hc : 0 < c)
    (hexc : ∀ v, c * ∑ j, v j ^ 2 ≤ excitation f.R cs v) :
    ∃ f', run cs f = .ok f' ∧
      ∑ j, flat (f'.grad - G) j ^ 2 ≤ (∑ j, (f.P⁻¹ *ᵥ flat (f.grad - G)) j ^ 2) / c ^ 2 := by
  obtain ⟨f', hrun, hP', -, herr, hinf⟩ := run_invariant cs f hs hP.posSemidef hcs
  refine ⟨f', hrun, ?_⟩
  have hdet : IsUnit f.P.det := (isUnit_iff_isUnit_det _).1 hP.isUnit
  set w := f.P⁻¹ *ᵥ flat (f.grad - G) with hw
  have he : f'.x - flat G = f'.P *ᵥ w := herr w (by
    rw [hw, mulVec_mulVec, mul_nonsing_inv _ hdet, one_mulVec, x_error])
  rw [x_error]
  set e := f'.x - flat G with hedef
  have hA := hinf f.P⁻¹ (nonsing_inv_mul _ hdet)
  have hAe : (f.P⁻¹ + information f.R cs) *ᵥ e = w := by
    rw [he, mulVec_mulVec, hA, one_mulVec]
  have h1 : c * ∑ j, e j ^ 2 ≤ e ⬝ᵥ w := by
    rw [← hAe, add_mulVec, dotProduct_add, information_quad]
    have h0 := hP.inv.posSemidef.dotProduct_mulVec_nonneg e
    simp only [star_trivial] at h0
    have := hexc e
    linarith
  have h2 : (e ⬝ᵥ w) ^ 2 ≤ (∑ j, e j ^ 2) * ∑ j, w j ^ 2 :=
    Finset.sum_mul_sq_le_sq_mul_sq _ _ _
  set E := ∑ j, e j ^ 2 with hE
  have hE0 : 0 ≤ E := Finset.sum_nonneg fun j _ => sq_nonneg _
  have h3 : (c * E) ^ 2 ≤ E * ∑ j, w j ^ 2 :=
    le_trans (pow_le_pow_left₀ (mul_nonneg hc.le hE0) h1 2) h2
  rw [le_div_iff₀ (by positivity)]
  rcases hE0.eq_or_lt with h | h
  · rw [← h, zero_mul]; exact Finset.sum_nonneg fun j _ => sq_nonneg _
  · have : E * (E * c ^ 2) ≤ E * ∑ j, w j ^ 2 := by
      calc E * (E * c ^ 2) = (c * E) ^ 2 := by ring
        _ ≤ _ := h3
    exact le_of_mul_le_mul_left this h

/-- **C45** (b').  The strength with which the calls have probed the direction of the remaining error
is at most `e_0ᵀ P_0⁻¹ e_0`, whatever the calls were. -/
theorem kalman_residual_bound (f : KG m n) (hs : Static f) (G : Matrix (Fin m) (Fin n) ℝ)
    (cs : List (Call m n)) (hcs : ∀ c ∈ cs, ExactCall G f.R c) (hP : f.P.PosDef) :
    ∃ f', run cs f = .ok f' ∧
      excitation f.R cs (flat (f'.grad - G)) ≤ variance f.P⁻¹ (flat (f.grad - G)) := by
  obtain ⟨f', hrun, -, -, herr, hinf⟩ := run_invariant cs f hs hP.posSemidef hcs
  refine ⟨f', hrun, ?_⟩
  have hdet : IsUnit f.P.det := (isUnit_iff_isUnit_det _).1 hP.isUnit
  set e₀ := flat (f.grad - G) with he₀
  have he : f'.x - flat G = f'.P *ᵥ (f.P⁻¹ *ᵥ e₀) := herr _ (by
    rw [mulVec_mulVec, mul_nonsing_inv _ hdet, one_mulVec, he₀, x_error])
  rw [x_error]
  set e := f'.x - flat G with hedef
  have hA := hinf f.P⁻¹ (nonsing_inv_mul _ hdet)
  have hAe : (f.P⁻¹ + information f.R cs) *ᵥ e = f.P⁻¹ *ᵥ e₀ := by
    rw [he, mulVec_mulVec, hA, one_mulVec]
  have h1 : e ⬝ᵥ (f.P⁻¹ *ᵥ e) + excitation f.R cs e = e ⬝ᵥ (f.P⁻¹ *ᵥ e₀) := by
    rw [← hAe, add_mulVec, dotProduct_add, information_quad]
  clear_value e e₀
  have h2 := hP.inv.posSemidef.dotProduct_mulVec_nonneg (e - e₀)
  simp only [star_trivial] at h2
  have hsymm : e₀ ⬝ᵥ (f.P⁻¹ *ᵥ e) = e ⬝ᵥ (f.P⁻¹ *ᵥ e₀) := by
    rw [dotProduct_mulVec, ← mulVec_transpose, symm_of_posDef hP.inv, dotProduct_comm]
  simp only [mulVec_sub, dotProduct_sub, sub_dotProduct, hsymm] at h2
  have ha := hP.inv.posSemidef.dotProduct_mulVec_nonneg e
  have hb := hP.inv.posSemidef.dotProduct_mulVec_nonneg e₀
  simp only [star_trivial] at ha hb
  rw [variance_eq]
  by_contra hlt
  push Not at hlt
  linarith

open _root_.Filter Topology in
/-- **C45** (d).  If an infinite sequence of exact measurements probes the direction `u` again and
again (after `k` calls with strength at least `g k`, where `g` grows beyond all bounds), the error along
`u` vanishes, even if other directions are never probed. -/
theorem kalman_converges_along (f : KG m n) (hs : Static f) (G : Matrix (Fin m) (Fin n) ℝ)
    (cs : ℕ → Call m n) (hcs : ∀ k, ExactCall G f.R (cs k)) (hP : f.P.PosDef) (u : Fin (m * n) → ℝ)
    (g : ℕ → ℝ) (hg : Tendsto g atTop atTop)
    (hexc : ∀ k v, g k * (∑ j, u j * v j) ^ 2 ≤ excitation f.R ((List.range k).map cs) v) :
    ∃ F : ℕ → KG m n, (∀ k, run ((List.range k).map cs) f = .ok (F k)) ∧
      Tendsto (fun k => ∑ j, u j * flat ((F k).grad - G) j) atTop (𝓝 0) := by
  have hcs' : ∀ k, ∀ c ∈ (List.range k).map cs, ExactCall G f.R c := by
    intro k c hc
    obtain ⟨j, -, rfl⟩ := List.mem_map.1 hc
    exact hcs j
  have hrun := fun k => kalman_residual_bound f hs G _ (hcs' k) hP
  choose F hF hle using hrun
  refine ⟨F, hF, ?_⟩
  have hbound : ∀ᶠ k in atTop, (∑ j, u j * flat ((F k).grad - G) j) ^ 2 ≤
      variance f.P⁻¹ (flat (f.grad - G)) / g k := by
    filter_upwards [hg.eventually_gt_atTop 0] with k hk
    rw [le_div_iff₀ hk, mul_comm]
    exact (hexc k _).trans (hle k)
  have hlim : Tendsto (fun k => variance f.P⁻¹ (flat (f.grad - G)) / g k) atTop (𝓝 0) :=
    Tendsto.div_atTop tendsto_const_nhds hg
  have hsq : Tendsto (fun k => (∑ j, u j * flat ((F k).grad - G) j) ^ 2) atTop (𝓝 0) :=
    squeeze_zero' (Eventually.of_forall fun k => sq_nonneg _) hbound hlim
  have habs : Tendsto (fun k => |∑ j, u j * flat ((F k).grad - G) j|) atTop (𝓝 0) := by
    have := (Real.continuous_sqrt.tendsto 0).comp hsq
    simpa [Function.comp_def, Real.sqrt_sq_eq_abs] using this
  exact (tendsto_zero_iff_abs_tendsto_zero _).2 habs

open _root_.Filter Topology in
/-- **C45** (c).  For an infinite sequence of exact measurements which probes every direction
again and again (after `k` calls with strength at least `g k`, where `g` grows beyond all bounds) every
entry of the estimate converges to the true gradient. -/
theorem kalman_converges (f : KG m n) (hs : Static f) (G : Matrix (Fin m) (Fin n) ℝ)
    (cs : ℕ → Call m n) (hcs : ∀ k, ExactCall G f.R (cs k)) (hP : f.P.PosDef) (g : ℕ → ℝ)
    (hg : Tendsto g atTop atTop)
    (hexc : ∀ k v, g k * ∑ j, v j ^ 2 ≤ excitation f.R ((List.range k).map cs) v) :
    ∃ F : ℕ → KG m n, (∀ k, run ((List.range k).map cs) f = .ok (F k)) ∧
      ∀ a i, Tendsto (fun k => (F k).grad a i) atTop (𝓝 (G a i)) := by
  have hcs' : ∀ k, ∀ c ∈ (List.range k).map cs, ExactCall G f.R c := by
    intro k c hc
    obtain ⟨j, -, rfl⟩ := List.mem_map.1 hc
    exact hcs j
  have hrun : ∀ k, ∃ f', run ((List.range k).map cs) f = .ok f' := fun k => by
    obtain ⟨f', h, -⟩ := kalman_error f hs G _ (hcs' k) hP.posSemidef
    exact ⟨f', h⟩
  choose F hF using hrun
  refine ⟨F, hF, fun a i => ?_⟩
  set W := ∑ j, (f.P⁻¹ *ᵥ flat (f.grad - G)) j ^ 2 with hW
  have hbound : ∀ᶠ k in atTop, ((F k).grad a i - G a i) ^ 2 ≤ W / g k ^ 2 := by
    filter_upwards [hg.eventually_gt_atTop 0] with k hk
    obtain ⟨f', hf', hle⟩ := kalman_error_bound f hs G _ (hcs' k) hP (g k) hk (hexc k)
    rw [hF k] at hf'
    cases hf'
    refine le_trans ?_ hle
    have hterm := Finset.single_le_sum (f := fun j => flat ((F k).grad - G) j ^ 2)
      (fun j _ => sq_nonneg _) (Finset.mem_univ (finProdFinEquiv (a, i)))
    have hdiv : (finProdFinEquiv (a, i)).divNat = a :=
      congrArg Prod.fst (finProdFinEquiv.symm_apply_apply (a, i))
    have hmod : (finProdFinEquiv (a, i)).modNat = i :=
      congrArg Prod.snd (finProdFinEquiv.symm_apply_apply (a, i))
    simp only [flat, hdiv, hmod, Matrix.sub_apply] at hterm
    exact hterm
  have hlim : Tendsto (fun k => W / g k ^ 2) atTop (𝓝 0) := by
    refine Tendsto.div_atTop tendsto_const_nhds ?_
    exact (tendsto_pow_atTop two_ne_zero).comp hg
  have hsq : Tendsto (fun k => ((F k).grad a i - G a i) ^ 2) atTop (𝓝 0) :=
    squeeze_zero' (Eventually.of_forall fun k => sq_nonneg _) hbound hlim
  have habs : Tendsto (fun k => |(F k).grad a i - G a i|) atTop (𝓝 0) := by
    have := (Real.continuous_sqrt.tendsto 0).comp hsq
    simpa [Function.comp_def, Real.sqrt_sq_eq_abs] using this
  have := (tendsto_zero_iff_abs_tendsto_zero _).2 habs
  have := this.add_const (G a i)
  simpa using this

/-- A filter for one gate and a sequence of measurements that meets the hypotheses. -/
example : ∃ (f : KG 1 1) (cs : ℕ → Call 1 1), Static f ∧ f.P.PosDef ∧
    (∀ k, ExactCall (fun _ _ => 3) f.R (cs k)) ∧
    ∀ (k : ℕ) v, (k : ℝ) * ∑ j, v j ^ 2 ≤ excitation f.R ((List.range k).map cs) v := by
  refine ⟨KG.new none none none none none 1, fun _ => ⟨fun _ => 1, fun _ => 3, none, none, true⟩,
    ⟨rfl, rfl, rfl⟩, PosDef.one, fun k => ⟨fun _ => by simp, PosDef.one, rfl⟩, fun k v => ?_⟩
  have : ∀ c : Call 1 1, c = ⟨fun _ => 1, fun _ => 3, none, none, true⟩ →
      variance (c.R.getD (KG.new none none none none none 1 : KG 1 1).R)⁻¹ (matrixH 1 c.diff *ᵥ v) =
        ∑ j, v j ^ 2 := by
    rintro c rfl
    simp [variance_eq, KG.new, matrixH, mulVec, dotProduct]
    ring
  unfold excitation
  rw [List.map_map]
  have hc : (List.range k).map ((fun c : Call 1 1 =>
      variance (c.R.getD (KG.new none none none none none 1 : KG 1 1).R)⁻¹ (matrixH 1 c.diff *ᵥ v)) ∘
      fun _ => ⟨fun _ => 1, fun _ => 3, none, none, true⟩) =
      List.replicate k (∑ j, v j ^ 2) := by
    rw [List.eq_replicate_iff]
    refine ⟨by simp, fun b hb => ?_⟩
    obtain ⟨j, -, rfl⟩ := List.mem_map.1 hb
    exact this _ rfl
  rw [hc, List.sum_replicate, nsmul_eq_mul]

end Qtune.Kalman
