import Verif.Kalman.FadingSpec
import Verif.Kalman.PropsRequests
import Mathlib.Analysis.SpecificLimits.Basic

/-! # The Kalman filter with fading memory -/

namespace Qtune.Kalman

open Matrix

variable {m n : Nat}

/-- The matrix of `probed`. -/
noncomputable def fadingInfo (a : ℝ) (R₀ : Matrix (Fin m) (Fin m) ℝ) :
    List (Call m n) → Matrix (Fin (m * n)) (Fin (m * n)) ℝ
  | [] => 0
  | c :: cs => ((a ^ 2) ^ cs.length)⁻¹ • ((matrixH m c.diff)ᵀ * (c.R.getD R₀)⁻¹ * matrixH m c.diff) +
      fadingInfo a R₀ cs

theorem fadingInfo_quad (a : ℝ) (R₀ : Matrix (Fin m) (Fin m) ℝ) (cs : List (Call m n)) (v : Fin (m * n) → ℝ) :
    v ⬝ᵥ (fadingInfo a R₀ cs *ᵥ v) = probed a R₀ v cs := by
  induction cs with
  | nil => simp [fadingInfo, probed]
  | cons c cs ih =>
    simp only [fadingInfo, probed, add_mulVec, dotProduct_add, ih, smul_mulVec, dotProduct_smul, smul_eq_mul]
    congr 1
    rw [variance_eq, div_eq_inv_mul]
    have := quad_conj (c.R.getD R₀)⁻¹ (matrixH m c.diff)ᵀ v
    rw [transpose_transpose] at this
    rw [this]

theorem fading_predict {a : ℝ} {f : KG m n} (h : Fading a f) :
    f.predict none = { f with P := a ^ 2 • f.P } := by
  obtain ⟨hF, hQ, ha⟩ := h
  rcases f with ⟨x, P, F, Q, R, α⟩
  simp only at hF hQ ha
  subst hF hQ ha
  simp [Filter.predict, sq]

/-- One call. -/
theorem fading_step {a : ℝ} (ha : a ≠ 0) {f : KG m n} (h : Fading a f) (hP : f.P.PosSemidef) {c : Call m n}
    (hc : Plain f.R c) :
    ∃ f', f.update c.diff c.values c.R c.Q c.predict = (f', .ok ()) ∧ Fading a f' ∧ f'.P.PosSemidef ∧ f'.R = f.R ∧
      (∀ A, A * f.P = 1 →
        ((a ^ 2)⁻¹ • A + (matrixH m c.diff)ᵀ * (c.R.getD f.R)⁻¹ * matrixH m c.diff) * f'.P = 1) ∧
      ∀ G : Matrix (Fin m) (Fin n) ℝ, (∀ k, c.values k = ∑ i, G k i * c.diff i) →
        ∀ w, f.x - flat G = f.P *ᵥ w → f'.x - flat G = f'.P *ᵥ ((a ^ 2)⁻¹ • w) := by
  have ha2 : (a ^ 2) ≠ 0 := pow_ne_zero 2 ha
  have hPa : (a ^ 2 • f.P).PosSemidef := hP.smul (sq_nonneg a)
  let g : KG m n := { f with P := a ^ 2 • f.P, alpha := 1 }
  have hg : Static g := ⟨h.F, h.Q, rfl⟩
  let H := matrixH m c.diff
  have hu : f.update c.diff c.values c.R c.Q c.predict =
      ({ f with
        x := f.x + g.gain (c.R.getD f.R) H *ᵥ (c.values - H *ᵥ f.x)
        P := g.P - g.P * Hᵀ * (g.innovation (c.R.getD f.R) H)⁻¹ * H * g.P }, .ok ()) := by
    unfold KG.update
    rw [hc.process, hc.predict, if_pos rfl, fading_predict h]
    exact correct_ok (f := ({ f with P := a ^ 2 • f.P } : KG m n)) hPa hc.noise H c.values
  have hsim : ∀ z : Fin m → ℝ, run [⟨c.diff, z, c.R, none, true⟩] g = .ok { g with
        x := g.x + g.gain (c.R.getD f.R) H *ᵥ (z - H *ᵥ g.x)
        P := g.P - g.P * Hᵀ * (g.innovation (c.R.getD f.R) H)⁻¹ * H * g.P } := by
    intro z
    have := (update_static hg ⟨c.diff, z, c.R, none, true⟩ rfl).trans
      (correct_ok (f := g) hPa (R := c.R) hc.noise H z)
    unfold run
    rw [this]
    rfl
  have hexact : ∀ G : Matrix (Fin m) (Fin n) ℝ, ∀ z : Fin m → ℝ, (∀ k, z k = ∑ i, G k i * c.diff i) →
      ∀ c' ∈ [(⟨c.diff, z, c.R, none, true⟩ : Call m n)], ExactCall G g.R c' := by
    intro G z hz c' hc'
    rw [List.mem_singleton] at hc'
    subst hc'
    exact ⟨hz, hc.noise, rfl⟩
  obtain ⟨f₀, hrun₀, hP₀, -, -, hinf⟩ := run_invariant (G := 0) [⟨c.diff, fun _ => 0, c.R, none, true⟩] g hg hPa
    (hexact 0 _ fun k => by simp)
  rw [hsim] at hrun₀
  have hP' : f₀.P = g.P - g.P * Hᵀ * (g.innovation (c.R.getD f.R) H)⁻¹ * H * g.P := by
    rw [← Except.ok.inj hrun₀]
  refine ⟨_, hu, ⟨h.F, h.Q, h.alpha⟩, by rw [← hP']; exact hP₀, rfl, ?_, ?_⟩
  · intro A hA
    have := hinf ((a ^ 2)⁻¹ • A) (by
      show ((a ^ 2)⁻¹ • A) * (a ^ 2 • f.P) = 1
      rw [smul_mul_smul_comm, inv_mul_cancel₀ ha2, one_smul, hA])
    rw [hP'] at this
    simpa [information] using this
  · intro G hG w hw
    obtain ⟨f₁, hrun₁, -, -, herr, -⟩ := run_invariant (G := G) [⟨c.diff, c.values, c.R, none, true⟩] g hg hPa
      (hexact G _ hG)
    rw [hsim] at hrun₁
    have h1 := herr ((a ^ 2)⁻¹ • w) (by
      show f.x - flat G = (a ^ 2 • f.P) *ᵥ ((a ^ 2)⁻¹ • w)
      rw [hw, smul_mulVec, mulVec_smul, smul_smul, mul_inv_cancel₀ ha2, one_smul])
    rw [← Except.ok.inj hrun₁] at h1
    exact h1

/-- Any number of calls. -/
theorem fading_run {a : ℝ} (ha : a ≠ 0) (cs : List (Call m n)) :
    ∀ (f : KG m n), Fading a f → f.P.PosSemidef → (∀ c ∈ cs, Plain f.R c) →
    ∃ f', run cs f = .ok f' ∧ Fading a f' ∧ f'.P.PosSemidef ∧ f'.R = f.R ∧
      (∀ A, A * f.P = 1 → (((a ^ 2) ^ cs.length)⁻¹ • A + fadingInfo a f.R cs) * f'.P = 1) ∧
      ∀ G : Matrix (Fin m) (Fin n) ℝ, (∀ c ∈ cs, ∀ k, c.values k = ∑ i, G k i * c.diff i) →
        ∀ w, f.x - flat G = f.P *ᵥ w → f'.x - flat G = f'.P *ᵥ (((a ^ 2) ^ cs.length)⁻¹ • w) := by
  induction cs with
  | nil =>
    intro f h hP _
    exact ⟨f, rfl, h, hP, rfl, fun A hA => by simpa [fadingInfo] using hA, fun G _ w hw => by simpa using hw⟩
  | cons c cs ih =>
    intro f h hP hcs
    obtain ⟨f₁, hu, h₁, hP₁, hR₁, hinf₁, herr₁⟩ := fading_step ha h hP (hcs c (by simp))
    obtain ⟨f', hrun, h', hP', hR', hinf', herr'⟩ := ih f₁ h₁ hP₁ fun c' hc' => by
      rw [hR₁]; exact hcs c' (by simp [hc'])
    refine ⟨f', ?_, h', hP', by rw [hR', hR₁], ?_, ?_⟩
    · unfold run
      rw [hu]
      exact hrun
    · intro A hA
      have := hinf' _ (hinf₁ A hA)
      rw [smul_add, smul_smul, ← mul_inv, ← pow_succ, hR₁, add_assoc] at this
      exact this
    · intro G hG w hw
      have := herr' G (fun c' hc' => hG c' (by simp [hc'])) _ (herr₁ G (hG c (by simp)) w hw)
      rw [smul_smul, ← mul_inv, ← pow_succ] at this
      exact this

theorem sqLen_eq {α : Type} [Fintype α] (v : α → ℝ) : sqLen v = v ⬝ᵥ v :=
  Finset.sum_congr rfl fun i _ => sq (v i)

theorem sqLen_nonneg {α : Type} [Fintype α] (v : α → ℝ) : 0 ≤ sqLen v := Finset.sum_nonneg fun _ _ => sq_nonneg _

/-- A positive semidefinite matrix stretches at most by its largest value. -/
theorem stretch {α : Type} [Fintype α] [DecidableEq α] {A : Matrix α α ℝ} (hA : A.PosSemidef) {β : ℝ} (hβ : 0 < β)
    (h : ∀ v, variance A v ≤ β * sqLen v) (e : α → ℝ) : sqLen (A *ᵥ e) ≤ β ^ 2 * sqLen e := by
  have h0 := hA.dotProduct_mulVec_nonneg (A *ᵥ e - β • e)
  simp only [star_trivial, mulVec_sub, mulVec_smul, dotProduct_sub, sub_dotProduct, dotProduct_smul, smul_dotProduct,
    smul_eq_mul] at h0
  have hsymm : e ⬝ᵥ (A *ᵥ (A *ᵥ e)) = (A *ᵥ e) ⬝ᵥ (A *ᵥ e) := by
    rw [dotProduct_mulVec, ← mulVec_transpose, symm_of_posSemidef hA]
  rw [hsymm] at h0
  have h1 := h (A *ᵥ e)
  have h2 := h e
  rw [variance_eq] at h1 h2
  rw [sqLen_eq] at h1 h2 ⊢
  rw [sqLen_eq] 
  have h3 := mul_le_mul_of_nonneg_left h2 (sq_nonneg β)
  nlinarith

/-- What one call adds. -/
theorem callInfo_psd {R : Matrix (Fin m) (Fin m) ℝ} (hR : R.PosDef) (d : Fin n → ℝ) :
    ((matrixH m d)ᵀ * R⁻¹ * matrixH m d).PosSemidef := by
  have := hR.inv.posSemidef.conjTranspose_mul_mul_same (matrixH m d)
  simpa using this

theorem fadingInfo_psd (a : ℝ) (R₀ : Matrix (Fin m) (Fin m) ℝ) (cs : List (Call m n))
    (hcs : ∀ c ∈ cs, Plain R₀ c) : (fadingInfo a R₀ cs).PosSemidef := by
  induction cs with
  | nil => exact PosSemidef.zero
  | cons c cs ih =>
    refine PosSemidef.add ?_ (ih fun c' hc' => hcs c' (by simp [hc']))
    exact (callInfo_psd (hcs c (by simp)).noise c.diff).smul (by positivity)

/-- The matrix that is inverse to the covariance after the calls. -/
theorem fading_inverse_psd {a : ℝ} {f : KG m n} (hP : f.P.PosDef) (cs : List (Call m n))
    (hcs : ∀ c ∈ cs, Plain f.R c) :
    (((a ^ 2) ^ cs.length)⁻¹ • f.P⁻¹ + fadingInfo a f.R cs).PosSemidef :=
  (hP.inv.posSemidef.smul (by positivity)).add (fadingInfo_psd a f.R cs hcs)

/-- A vector with a strongly positive image is short. -/
theorem short {α : Type} [Fintype α] {e w : α → ℝ} {c : ℝ} (hc : 0 < c) (h : c * sqLen e ≤ e ⬝ᵥ w) :
    sqLen e ≤ sqLen w / c ^ 2 := by
  have h2 : (e ⬝ᵥ w) ^ 2 ≤ sqLen e * sqLen w := Finset.sum_mul_sq_le_sq_mul_sq _ _ _
  have h3 : (c * sqLen e) ^ 2 ≤ sqLen e * sqLen w :=
    le_trans (pow_le_pow_left₀ (mul_nonneg hc.le (sqLen_nonneg e)) h 2) h2
  rw [le_div_iff₀ (by positivity)]
  rcases (sqLen_nonneg e).eq_or_lt with h | h
  · rw [← h, zero_mul]; exact sqLen_nonneg w
  · have : sqLen e * (sqLen e * c ^ 2) ≤ sqLen e * sqLen w := by nlinarith
    exact le_of_mul_le_mul_left this h

theorem sqLen_smul {α : Type} [Fintype α] (t : ℝ) (v : α → ℝ) : sqLen (t • v) = t ^ 2 * sqLen v := by
  simp [sqLen, mul_pow, Finset.mul_sum]

/-- **C122** (a).  With exact measurements of an affine response with gradient `G` the error of a filter with
fading memory after `N` calls is `P_N P_0⁻¹` times the initial error, divided by `a^(2N)`; and if the calls,
weighted by age, have probed every direction with strength at least `c`, the squared length of the error is at
most `|P_0⁻¹ e_0|² / (a^(2N) c)²`. -/
theorem fading_error {a : ℝ} (ha : a ≠ 0) (f : KG m n) (hs : Fading a f) (hP : f.P.PosDef)
    (G : Matrix (Fin m) (Fin n) ℝ) (cs : List (Call m n)) (hcs : ∀ c ∈ cs, Plain f.R c)
    (hG : ∀ c ∈ cs, ∀ k, c.values k = ∑ i, G k i * c.diff i) :
    ∃ f', run cs f = .ok f' ∧
      flat (f'.grad - G) = ((a ^ 2) ^ cs.length)⁻¹ • (f'.P * f.P⁻¹) *ᵥ flat (f.grad - G) ∧
      ∀ c > 0, (∀ v, c * sqLen v ≤ probed a f.R v cs) →
        sqLen (flat (f'.grad - G)) ≤ sqLen (f.P⁻¹ *ᵥ flat (f.grad - G)) / ((a ^ 2) ^ cs.length * c) ^ 2 := by
  obtain ⟨f', hrun, -, -, -, hinf, herr⟩ := fading_run ha cs f hs hP.posSemidef hcs
  have hdet : IsUnit f.P.det := (isUnit_iff_isUnit_det _).1 hP.isUnit
  have he := herr G hG (f.P⁻¹ *ᵥ flat (f.grad - G)) (by
    rw [mulVec_mulVec, mul_nonsing_inv _ hdet, one_mulVec, x_error])
  refine ⟨f', hrun, ?_, ?_⟩
  · rw [x_error, he, mulVec_smul, mulVec_mulVec]
  · intro c hc hpr
    rw [x_error]
    have hA := hinf f.P⁻¹ (nonsing_inv_mul _ hdet)
    set w := ((a ^ 2) ^ cs.length)⁻¹ • (f.P⁻¹ *ᵥ flat (f.grad - G)) with hw
    set e := f'.x - flat G with hedef
    have hAe : (((a ^ 2) ^ cs.length)⁻¹ • f.P⁻¹ + fadingInfo a f.R cs) *ᵥ e = w := by
      rw [he, mulVec_mulVec, hA, one_mulVec]
    have h1 : c * sqLen e ≤ e ⬝ᵥ w := by
      rw [← hAe, add_mulVec, dotProduct_add, fadingInfo_quad]
      have h0 := (hP.inv.posSemidef.smul (a := ((a ^ 2) ^ cs.length)⁻¹) (by positivity)).dotProduct_mulVec_nonneg e
      simp only [star_trivial] at h0
      have := hpr e
      linarith
    have := short hc h1
    rw [hw, sqLen_smul] at this
    refine this.trans (le_of_eq ?_)
    rw [mul_pow, inv_pow]
    field_simp

/-- The weight of a history does not grow beyond a bound. -/
theorem probed_bound {a : ℝ} (ha : 1 < a) {R₀ : Matrix (Fin m) (Fin m) ℝ} {v : Fin (m * n) → ℝ} {b : ℝ}
    (cs : List (Call m n)) (hb : ∀ c ∈ cs, variance (c.R.getD R₀)⁻¹ (matrixH m c.diff *ᵥ v) ≤ b) :
    probed a R₀ v cs ≤ b * ∑ j ∈ Finset.range cs.length, ((a ^ 2)⁻¹) ^ j := by
  induction cs with
  | nil => simp [probed]
  | cons c cs ih =>
    have h1 := ih fun c' hc' => hb c' (by simp [hc'])
    have h2 := hb c (by simp)
    have hpos : 0 ≤ ((a ^ 2)⁻¹) ^ cs.length := by positivity
    rw [probed, List.length_cons, Finset.sum_range_succ, mul_add, div_eq_mul_inv, ← inv_pow]
    have := mul_le_mul_of_nonneg_right h2 hpos
    linarith

theorem geometric_bound {q : ℝ} (h0 : 0 ≤ q) (h1 : q < 1) (N : ℕ) : ∑ j ∈ Finset.range N, q ^ j ≤ (1 - q)⁻¹ := by
  rw [← tsum_geometric_of_lt_one h0 h1]
  exact (summable_geometric_of_lt_one h0 h1).sum_le_tsum _ fun _ _ => by positivity

/-- **C122** (b).  A filter with fading memory `a > 1` follows the device: after any history, with measurements of
whatever, the error with respect to a gradient `G` shrinks with every further exact call for `G` at least
geometrically.  The constant depends on the initial covariance (`B`), on the strength of one call (`b`) and on how
well the new calls probe (`c`), but not on the length of the history. -/
theorem fading_forgets {a : ℝ} (ha : 1 < a) (f : KG m n) (hs : Fading a f) (hP : f.P.PosDef) {B b c : ℝ} (hB : 0 < B)
    (hPB : ∀ v, variance f.P⁻¹ v ≤ B * sqLen v) (hb : 0 ≤ b)
    (G : Matrix (Fin m) (Fin n) ℝ) (old new : List (Call m n)) (hold : ∀ c ∈ old, Plain f.R c)
    (hob : ∀ c ∈ old, ∀ v, variance (c.R.getD f.R)⁻¹ (matrixH m c.diff *ᵥ v) ≤ b * sqLen v)
    (hnew : ∀ c ∈ new, Plain f.R c) (hG : ∀ c ∈ new, ∀ k, c.values k = ∑ i, G k i * c.diff i)
    (hc : 0 < c) (hpr : ∀ v, c * sqLen v ≤ probed a f.R v new) :
    ∃ f₁ f₂, run old f = .ok f₁ ∧ run new f₁ = .ok f₂ ∧
      sqLen (flat (f₂.grad - G)) ≤
        ((B + b / (1 - 1 / a ^ 2)) / (c * (a ^ 2) ^ new.length)) ^ 2 * sqLen (flat (f₁.grad - G)) := by
  have ha0 : a ≠ 0 := by positivity
  have hq1 : (a ^ 2)⁻¹ < 1 := inv_lt_one_of_one_lt₀ (by nlinarith)
  have hq0 : 0 ≤ (a ^ 2)⁻¹ := by positivity
  obtain ⟨f₁, hrun₁, hs₁, hP₁, hR₁, hinf₁, -⟩ := fading_run ha0 old f hs hP.posSemidef hold
  have hdet : IsUnit f.P.det := (isUnit_iff_isUnit_det _).1 hP.isUnit
  have hA := hinf₁ f.P⁻¹ (nonsing_inv_mul _ hdet)
  have hpd₁ : f₁.P.PosDef := hP₁.posDef_iff_isUnit.2 (IsUnit.of_mul_eq_one_right _ hA)
  have hinv : f₁.P⁻¹ = ((a ^ 2) ^ old.length)⁻¹ • f.P⁻¹ + fadingInfo a f.R old := inv_eq_left_inv hA
  obtain ⟨f₂, hrun₂, -, hbound⟩ := fading_error ha0 f₁ hs₁ hpd₁ G new (by rw [hR₁]; exact hnew) hG
  refine ⟨f₁, f₂, hrun₁, hrun₂, (hbound c hc (by rw [hR₁]; exact hpr)).trans ?_⟩
  set β := B + b / (1 - 1 / a ^ 2) with hβ
  have h1q : 0 < 1 - 1 / a ^ 2 := by rw [one_div]; linarith
  have hβ0 : 0 < β := by positivity
  have hst := stretch hpd₁.inv.posSemidef hβ0 (fun v => by
    have hv0 := sqLen_nonneg v
    rw [hinv, variance_eq, add_mulVec, dotProduct_add, fadingInfo_quad, smul_mulVec, dotProduct_smul, smul_eq_mul,
      hβ, add_mul]
    refine add_le_add ?_ ?_
    · have h1 := hPB v
      rw [variance_eq] at h1
      have h0 := hP.inv.posSemidef.dotProduct_mulVec_nonneg v
      simp only [star_trivial] at h0
      have : ((a ^ 2) ^ old.length)⁻¹ ≤ 1 := inv_le_one_of_one_le₀ (one_le_pow₀ (by nlinarith))
      nlinarith
    · refine (probed_bound ha old (fun c hc => hob c hc v)).trans ?_
      have := geometric_bound hq0 hq1 old.length
      calc b * sqLen v * _ ≤ b * sqLen v * (1 - (a ^ 2)⁻¹)⁻¹ := mul_le_mul_of_nonneg_left this (by positivity)
        _ = b / (1 - 1 / a ^ 2) * sqLen v := by rw [one_div]; field_simp) (flat (f₁.grad - G))
  have hpos : 0 < ((a ^ 2) ^ new.length * c) ^ 2 := by positivity
  calc _ ≤ β ^ 2 * sqLen (flat (f₁.grad - G)) / ((a ^ 2) ^ new.length * c) ^ 2 :=
        div_le_div_of_nonneg_right hst hpos.le
    _ = _ := by rw [div_pow, mul_comm c]; ring

/-- One gate, `a = 2`: any number of measurements of a gradient 0 and then two of a gradient 3. -/
example (T : ℕ) : ∃ (f : KG 1 1) (old new : List (Call 1 1)), old.length = T ∧ Fading 2 f ∧ f.P.PosDef ∧
    (∀ v, variance f.P⁻¹ v ≤ 1 * sqLen v) ∧ (∀ c ∈ old, Plain f.R c) ∧
    (∀ c ∈ old, ∀ v, variance (c.R.getD f.R)⁻¹ (matrixH 1 c.diff *ᵥ v) ≤ 1 * sqLen v) ∧
    (∀ c ∈ new, Plain f.R c) ∧ (∀ c ∈ new, ∀ k, c.values k = ∑ i, (fun _ _ => (3 : ℝ)) k i * c.diff i) ∧
    ∀ v, 5 / 4 * sqLen v ≤ probed 2 f.R v new := by
  have hone : ∀ (z : ℝ) (v : Fin (1 * 1) → ℝ), variance ((none : Option (Matrix (Fin 1) (Fin 1) ℝ)).getD
      (KG.new none none none none none 2 : KG 1 1).R)⁻¹ (matrixH 1 (fun _ : Fin 1 => (1 : ℝ)) *ᵥ v) = sqLen v := by
    intro z v
    simp [variance_eq, KG.new, matrixH, mulVec, dotProduct, sqLen]
    ring
  refine ⟨KG.new none none none none none 2, List.replicate T ⟨fun _ => 1, fun _ => 0, none, none, true⟩,
    List.replicate 2 ⟨fun _ => 1, fun _ => 3, none, none, true⟩, by simp, ⟨rfl, rfl, rfl⟩, PosDef.one, ?_, ?_, ?_, ?_,
    ?_, ?_⟩
  · intro v
    simp [KG.new, variance_eq, sqLen_eq]
  · intro c hc
    rw [List.eq_of_mem_replicate hc]
    exact ⟨PosDef.one, rfl, rfl⟩
  · intro c hc v
    rw [List.eq_of_mem_replicate hc, hone 0]
    linarith
  · intro c hc
    rw [List.eq_of_mem_replicate hc]
    exact ⟨PosDef.one, rfl, rfl⟩
  · intro c hc k
    rw [List.eq_of_mem_replicate hc]
    simp
  · intro v
    simp only [List.replicate, probed, hone 3, List.length_cons, List.length_nil]
    norm_num
    linarith [sqLen_nonneg v]

end Qtune.Kalman
