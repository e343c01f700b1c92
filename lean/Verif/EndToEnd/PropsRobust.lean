import Verif.EndToEnd.RobustSpec
import Mathlib.LinearAlgebra.Matrix.NonsingularInverse

/-!
# End to end: a device that is nearly affine is tuned

The gradients are the ones that the finite difference estimators find on the device itself, so that they are only
approximately right.
-/

namespace Qtune.EndToEnd

open Qtune.Tuner Qtune.Gradient Qtune.Autotuner

variable {n m : Nat}

/-- Orthogonal vectors of the length `η`: the length of a vector from its products with them. -/
theorem parseval {d : Fin n → Vec n} {η : ℝ} (hη : 0 < η) (hsp : Spread (some η) d) (w : Vec n) :
    η ^ 2 * ∑ i, w i ^ 2 = ∑ j, (∑ i, w i * d j i) ^ 2 := by
  obtain ⟨hlen, hort⟩ := hsp η rfl
  let D : Matrix (Fin n) (Fin n) ℝ := Matrix.of d
  have h1 : (η ^ 2)⁻¹ • (D * D.transpose) = 1 := by
    ext j j'
    simp only [Matrix.smul_apply, Matrix.mul_apply, Matrix.transpose_apply, D, Matrix.of_apply, smul_eq_mul]
    by_cases h : j = j'
    · subst h
      have := len_sq (d j)
      rw [hlen] at this
      have h2 : ∑ i, d j i * d j i = η ^ 2 := by
        rw [this]
        exact Finset.sum_congr rfl fun i _ => by ring
      rw [h2, Matrix.one_apply_eq, inv_mul_cancel₀ (by positivity)]
    · rw [hort j j' h, mul_zero, Matrix.one_apply_ne h]
  have h2 : D.transpose * ((η ^ 2)⁻¹ • D) = 1 := by
    rw [← Matrix.smul_mul] at h1
    exact mul_eq_one_comm.1 h1
  have h3 : ∀ i i', ∑ j, d j i * d j i' = if i = i' then η ^ 2 else 0 := by
    intro i i'
    have := congrFun (congrFun h2 i) i'
    simp only [Matrix.mul_apply, Matrix.transpose_apply, Matrix.smul_apply, D, Matrix.of_apply, smul_eq_mul,
      Matrix.one_apply] at this
    have h4 : ∑ j, d j i * d j i' = η ^ 2 * ∑ j, d j i * ((η ^ 2)⁻¹ * d j i') := by
      rw [Finset.mul_sum]
      refine Finset.sum_congr rfl fun j _ => ?_
      field_simp
    rw [h4, this]
    split_ifs <;> simp
  have h4 : ∀ j, (∑ i, w i * d j i) ^ 2 = ∑ i, ∑ i', w i * w i' * (d j i * d j i') := by
    intro j
    rw [pow_two, Finset.sum_mul_sum]
    exact Finset.sum_congr rfl fun i _ => Finset.sum_congr rfl fun i' _ => by ring
  simp only [h4]
  rw [Finset.sum_comm, Finset.mul_sum]
  refine Finset.sum_congr rfl fun i _ => ?_
  rw [Finset.sum_comm]
  simp only [← Finset.mul_sum, h3]
  simp [pow_two]
  ring

/-- Gradients that agree with the differences between the points are close to the true ones, if the differences
are nearly what the true ones say. -/
theorem differences_close {S : Setup n m} {κ δ η ρ : ℝ} (hη : 0 < η)
    (hρ : Real.sqrt n * (κ + δ / η) ≤ ρ) {d : Fin n → Vec n} (hsp : Spread (some η) d)
    {G : Fin m → Vec n} (hb : 0 ≤ κ * η + δ)
    (hG : ∀ j, len (fun k => ∑ i, G k i * d j i - ∑ i, S.slope k i * d j i) ≤ κ * η + δ) :
    frob (G - S.slope) ≤ ρ := by
  have hres : ∀ j, ∑ k, (∑ i, (G - S.slope) k i * d j i) ^ 2 ≤ (κ * η + δ) ^ 2 := by
    intro j
    have h2 := pow_le_pow_left₀ (len_nonneg _) (hG j) 2
    rw [len_sq] at h2
    refine le_trans (le_of_eq (Finset.sum_congr rfl fun k _ => ?_)) h2
    simp only [Pi.sub_apply, sub_mul, Finset.sum_sub_distrib]
  have h1 : (η * frob (G - S.slope)) ^ 2 ≤ (Real.sqrt n * (κ * η + δ)) ^ 2 := by
    rw [mul_pow, frob_sq, Finset.mul_sum, mul_pow, Real.sq_sqrt (Nat.cast_nonneg n)]
    simp only [parseval hη hsp]
    rw [Finset.sum_comm]
    calc ∑ j, ∑ k, (∑ i, (G - S.slope) k i * d j i) ^ 2 ≤ ∑ _j : Fin n, (κ * η + δ) ^ 2 :=
          Finset.sum_le_sum fun j _ => hres j
      _ = n * (κ * η + δ) ^ 2 := by simp
  have h2 := (le_abs_self _).trans (abs_le_of_sq_le_sq h1 (mul_nonneg (Real.sqrt_nonneg _) hb))
  have h3 : Real.sqrt n * (κ * η + δ) = η * (Real.sqrt n * (κ + δ / η)) := by
    field_simp
  rw [h3] at h2
  exact (le_of_mul_le_mul_left h2 hη).trans hρ

/-- The secants of a nearly affine device are close to the gradients. -/
theorem secants_close {S : Setup n m} {κ δ η ρ : ℝ} (hbend : NearlyAffine S κ δ) (hη : 0 < η)
    (hρ : Real.sqrt n * (κ + δ / η) ≤ ρ) {c : Vec n} {d : Fin n → Vec n} (hsp : Spread (some η) d)
    {G : Fin m → Vec n} {E : Fin m → FD n} (hG : Secants S c d G E) (hb : 0 ≤ κ * η + δ) :
    frob (G - S.slope) ≤ ρ := by
  refine differences_close hη hρ hsp hb fun j => ?_
  have h1 := hbend c (d j)
  rw [(hsp η rfl).1 j] at h1
  refine le_trans (le_of_eq ?_) h1
  congr 1
  funext k
  rw [(hG k).2 j]
  rfl

/-- A Newton step with secants reduces what is missing. -/
theorem robust_step {S : Setup n m} {κ δ ρ σ : ℝ} {e e' : Fin m → ℝ} (hκ : 0 ≤ κ) (hρ0 : 0 ≤ ρ)
    (hρσ : ρ < σ) {G : Fin m → Vec n} (hfrob : frob (G - S.slope) ≤ ρ) {x : Vec n} (hx : act G x = e)
    (hlen : (σ - ρ) * len x ≤ len e)
    (hbend : len (fun k => e k - e' k - ∑ i, S.slope k i * x i) ≤ κ * len x + δ) :
    len e' ≤ (ρ + κ) / (σ - ρ) * len e + δ := by
  have hτ : 0 < σ - ρ := by linarith
  let r : Fin m → ℝ := fun k => e k - e' k - ∑ i, S.slope k i * x i
  have hm : e' = act (G - S.slope) x + (-1 : ℝ) • r := by
    funext k
    have := congrFun hx k
    simp only [act] at this
    simp only [act, r, Pi.add_apply, Pi.smul_apply, smul_eq_mul, Pi.sub_apply, sub_mul,
      Finset.sum_sub_distrib, this]
    ring
  have h1 := len_add (act (G - S.slope) x) ((-1 : ℝ) • r)
  rw [← hm, len_smul] at h1
  have h2 := act_le (G - S.slope) x
  have h3 : len r ≤ κ * len x + δ := hbend
  have h4 := mul_le_mul_of_nonneg_right hfrob (len_nonneg x)
  have h5 : (ρ + κ) * len x ≤ (ρ + κ) / (σ - ρ) * len e := by
    rw [div_mul_eq_mul_div, le_div_iff₀ hτ]
    nlinarith [mul_le_mul_of_nonneg_left hlen (by positivity : 0 ≤ ρ + κ)]
  norm_num at h1
  nlinarith

/-- Newton steps until the set points are met. -/
theorem robust_phase {S : Setup n m} (hS : S.Sound) {κ δ ρ σ : ℝ} (hbend : NearlyAffine S κ δ) (hκ : 0 ≤ κ)
    (hσ : Conditioned S σ) (hρ0 : 0 ≤ ρ) (hρσ : 2 * ρ + κ < σ) {orth : Orth n}
    {lstsq : Newton.Lstsq (Fin n)} (hls : Newton.LstsqSpec lstsq) {μ : Val × Int} (hμ : μ.1 = none)
    {G : Fin m → Vec n} (hfrob : frob (G - S.slope) ≤ ρ) (N : Nat) :
    ∀ (E : Fin m → FD n) (q : Vec n) (t : OneTuner (FD n) n) (b : ℝ), At S μ E q t → (∀ k, Done (G k) (E k)) →
      len (S.miss q) ≤ b + δ / (1 - (ρ + κ) / (σ - ρ)) →
      (∀ k tol, (S.row k).tolerance = some tol →
        ((ρ + κ) / (σ - ρ)) ^ (N + 1) * b + δ / (1 - (ρ + κ) / (σ - ρ)) < tol) →
      CompletesWithin S (fdI orth) lstsq (3 * (N + 1)) ⟨t, volts q, 0, true, none⟩ := by
  have hτ : 0 < σ - ρ := by linarith
  obtain ⟨a, ha⟩ : ∃ a, a = (ρ + κ) / (σ - ρ) := ⟨_, rfl⟩
  have ha0 : 0 ≤ a := by rw [ha]; positivity
  have ha1 : a < 1 := by rw [ha, div_lt_one hτ]; linarith
  rw [← ha]
  have hfix : a * (δ / (1 - a)) + δ = δ / (1 - a) := by
    have : (1 - a) ≠ 0 := by linarith
    field_simp
    ring
  have hstep : ∀ (E : Fin m → FD n) (q : Vec n) (t : OneTuner (FD n) n) (b : ℝ), At S μ E q t →
      (∀ k, Done (G k) (E k)) → len (S.miss q) ≤ b + δ / (1 - a) →
      ∃ x, Newton.suggest (fdI orth) lstsq [] t.solver =
        ({ t.solver with ests := List.ofFn E }, .ok fun i => some (some ((q + x) i))) ∧
        len (S.miss (q + x)) ≤ a * b + δ / (1 - a) := by
    intro E q t b h hdone hb
    obtain ⟨x, hsug, hx, hlen⟩ := known_suggestion hS hls h (G := G) (I := fdI orth)
      (fun k tj => (hdone k).silent tj) (fun k => by
        obtain ⟨C, hC⟩ := (hdone k).est
        simp [fdI, hC]) hτ (perturbed hσ hfrob)
    refine ⟨x, hsug, ?_⟩
    have h1 := robust_step (δ := δ) (e' := S.miss (q + x)) hκ hρ0 (by linarith) hfrob hx hlen (by
      refine le_trans (le_of_eq ?_) (hbend q x)
      congr 1
      funext k
      simp only [Setup.miss, Setup.slope]
      ring)
    rw [← ha] at h1
    have h2 := mul_le_mul_of_nonneg_left hb ha0
    rw [← hfix]
    linarith
  induction N with
  | zero =>
    intro E q t b h hdone hb htol
    obtain ⟨x, hsug, hx⟩ := hstep E q t b h hdone hb
    obtain ⟨t', hnext, hbase⟩ := suggestion (E' := E) (q' := q + x) h (by rw [hμ]; simp) hsug
    refine cycle_or hS hnext hbase (fun k y _ => ⟨E k, (hdone k).keeps _ _ _⟩) 0 ?_
    intro y t'' _ hnot _
    exfalso
    apply hnot
    refine met_of_small fun k tol hk => ?_
    have := htol k tol hk
    rw [zero_add, pow_one] at this
    linarith
  | succ N ih =>
    intro E q t b h hdone hb htol
    obtain ⟨x, hsug, hx⟩ := hstep E q t b h hdone hb
    obtain ⟨t', hnext, hbase⟩ := suggestion (E' := E) (q' := q + x) h (by rw [hμ]; simp) hsug
    have := cycle_or hS (q := q) hnext hbase (fun k y _ => ⟨E k, (hdone k).keeps _ _ _⟩) (3 * (N + 1)) (by
      intro y t'' _ _ hAt
      refine ih _ _ t'' (a * b) hAt (fun k => ?_) hx fun k tol hk => ?_
      · have : (fdI orth).update (volts (q + x)) (some (S.scaled k (q + x))) (some (y k)) (E k) = (E k, .ok ()) :=
          (hdone k).keeps _ _ _
        rw [this]
        exact hdone k
      · have := htol k tol hk
        rw [pow_succ, mul_assoc] at this
        exact this)
    rw [show 3 * (N + 1 + 1) = 3 + 3 * (N + 1) by ring]
    exact this

theorem gates_of_conditioned {S : Setup n m} (hS : S.Sound) {σ : ℝ} (h0 : 0 < σ) (hσ : Conditioned S σ) : n ≠ 0 := by
  rintro rfl
  have h1 := hσ fun _ => 1
  have h2 : len (fun i : Fin 0 => ∑ k, (fun _ : Fin m => (1 : ℝ)) k * (S.grad k i / S.scale k)) = 0 := by simp [len]
  rw [h2] at h1
  have h3 : 1 ≤ len fun _ : Fin m => (1 : ℝ) := by
    have := abs_le_len (fun _ : Fin m => (1 : ℝ)) ⟨0, Nat.pos_of_ne_zero hS.nonempty⟩
    simpa using this
  nlinarith

/-- **C125**.  An autotuner whose single tuner uses a Newton solver and one-sided finite difference estimators with
steps of the length `η` tunes every device that is nearly affine.  `σ` says how well the gradients are
conditioned, `κ` and `δ` how far the responses are from being affine, `ρ` how wrong the measured gradients can be.
With `a = (ρ + κ) / (σ - ρ)`, which is less than 1, each Newton step reduces what is missing by the factor `a` up
to `δ`.  If the tolerances are larger than `a ^ (N + 1)` times what can be missing after the gradients have been
measured plus `δ / (1 - a)`, `iterate` called at most `3 * n + 1 + 3 * (N + 1)` times never raises and ends with the
tuning complete, and the voltages then meet all set points within their tolerances. -/
theorem nearly_affine_device_is_tuned {S : Setup n m} (hS : S.Sound) {κ δ σ ρ η : ℝ} (hκ : 0 ≤ κ) (hδ : 0 ≤ δ)
    (hη : 0 < η) (hbend : NearlyAffine S κ δ) (hσ : Conditioned S σ) (hρ : Real.sqrt n * (κ + δ / η) ≤ ρ)
    (hρσ : 2 * ρ + κ < σ) {orth : Orth n} (ho : OrthSpec orth) {lstsq : Newton.Lstsq (Fin n)}
    (hls : Newton.LstsqSpec lstsq) (c : Vec n) (t : OneTuner (FD n) n) (ht : InitialEven S c η t) (N : Nat)
    (htol : ∀ k tol, (S.row k).tolerance = some tol →
      ((ρ + κ) / (σ - ρ)) ^ (N + 1) * (missing S c + steepness S * η + κ * η + δ) +
        δ / (1 - (ρ + κ) / (σ - ρ)) < tol) :
    CompletesWithin S (fdI orth) lstsq (3 * n + 1 + 3 * (N + 1)) (fresh t (volts c)) := by
  have hρ0 : 0 ≤ ρ := le_trans (by positivity) hρ
  have hn := gates_of_conditioned hS (by linarith) hσ
  obtain ⟨start, hstart, hests⟩ := ht.ests
  refine first_phase_any hS hn ho c t (B := η) (η := some η) hstart (fun _ _ => ⟨hη, le_refl _⟩)
    (fun k h hh i => by cases hh; rfl)
    ⟨ht.target, hests, ht.gates, ht.index, rfl, rfl, ht.queued, ht.lastIndex⟩ (by rw [ht.maxStep]; simp) _ ?_
  intro E q t' d G hAt hq hd hsp hG
  have hfrob := secants_close hbend hη hρ hsp hG (by positivity)
  refine robust_phase hS hbend hκ hσ hρ0 hρσ hls ht.maxStep hfrob N E q t' _ hAt (fun k => (hG k).1) ?_ htol
  have hτ : 0 < σ - ρ := by linarith
  have ha1 : 0 < 1 - (ρ + κ) / (σ - ρ) := by
    rw [sub_pos, div_lt_one hτ]; linarith
  have hpos : 0 ≤ δ / (1 - (ρ + κ) / (σ - ρ)) := by positivity
  let r : Fin m → ℝ := fun k => S.response k (c + (q - c)) / S.scale k - S.response k c / S.scale k -
    ∑ i, S.grad k i / S.scale k * (q - c) i
  have hm : S.miss q = (fun k => S.desired k - S.response k c / S.scale k) +
      (-1 : ℝ) • (act S.slope (q - c) + r) := by
    funext k
    simp only [Setup.miss, act, r, Pi.add_apply, Pi.smul_apply, smul_eq_mul, Setup.slope, add_sub_cancel]
    ring
  have h1 : len (S.miss q) ≤ missing S c + (len (act S.slope (q - c)) + len r) := by
    rw [hm]
    refine (len_add _ _).trans ?_
    rw [len_smul]
    have := len_add (act S.slope (q - c)) r
    norm_num
    exact add_le_add le_rfl this
  have h2 : len r ≤ κ * len (q - c) + δ := hbend c (q - c)
  have h3 : len (act S.slope (q - c)) ≤ steepness S * len (q - c) := act_le S.slope (q - c)
  have h4 : steepness S * len (q - c) ≤ steepness S * η := mul_le_mul_of_nonneg_left hq (Real.sqrt_nonneg _)
  have h5 := mul_le_mul_of_nonneg_left hq hκ
  linarith

/-- **C125**, in short: if all tolerances are larger than `δ / (1 - a)`, the tuning is complete after finitely many
calls. -/
theorem nearly_affine_device_is_tuned_eventually {S : Setup n m} (hS : S.Sound) {κ δ σ ρ η : ℝ} (hκ : 0 ≤ κ)
    (hδ : 0 ≤ δ) (hη : 0 < η) (hbend : NearlyAffine S κ δ) (hσ : Conditioned S σ)
    (hρ : Real.sqrt n * (κ + δ / η) ≤ ρ) (hρσ : 2 * ρ + κ < σ) {orth : Orth n} (ho : OrthSpec orth)
    {lstsq : Newton.Lstsq (Fin n)} (hls : Newton.LstsqSpec lstsq) (c : Vec n) (t : OneTuner (FD n) n)
    (ht : InitialEven S c η t)
    (htol : ∀ k tol, (S.row k).tolerance = some tol → δ / (1 - (ρ + κ) / (σ - ρ)) < tol) :
    ∃ N, CompletesWithin S (fdI orth) lstsq N (fresh t (volts c)) := by
  have hρ0 : 0 ≤ ρ := le_trans (by positivity) hρ
  have hτ : 0 < σ - ρ := by linarith
  have ha0 : 0 ≤ (ρ + κ) / (σ - ρ) := by positivity
  have ha1 : (ρ + κ) / (σ - ρ) < 1 := by rw [div_lt_one hτ]; linarith
  have hlim : Filter.Tendsto (fun N : Nat => ((ρ + κ) / (σ - ρ)) ^ (N + 1) *
      (missing S c + steepness S * η + κ * η + δ) + δ / (1 - (ρ + κ) / (σ - ρ))) Filter.atTop
      (nhds (0 * (missing S c + steepness S * η + κ * η + δ) + δ / (1 - (ρ + κ) / (σ - ρ)))) :=
    (((tendsto_pow_atTop_nhds_zero_of_lt_one ha0 ha1).comp (Filter.tendsto_add_atTop_nat 1)).mul_const _).add_const _
  rw [zero_mul, zero_add] at hlim
  have hev : ∀ᶠ N : Nat in Filter.atTop, ∀ k : Fin m, ∀ tol, (S.row k).tolerance = some tol →
      ((ρ + κ) / (σ - ρ)) ^ (N + 1) * (missing S c + steepness S * η + κ * η + δ) +
        δ / (1 - (ρ + κ) / (σ - ρ)) < tol := by
    rw [Filter.eventually_all]
    intro k
    cases hk : (S.row k).tolerance with
    | none => exact Filter.Eventually.of_forall fun _ _ h => by cases h
    | some tol =>
      filter_upwards [hlim.eventually_lt_const (htol k tol hk)] with N hN tol' htol'
      cases htol'
      exact hN
  obtain ⟨N, hN⟩ := hev.exists
  exact ⟨_, nearly_affine_device_is_tuned hS hκ hδ hη hbend hσ hρ hρσ ho hls c t ht N hN⟩

/-! ### A device and a tuner that meet the hypotheses -/

/-- The response of `sampleSetup` with a kink at `g0 = 0` and a jump at `g1 = 0`. -/
noncomputable def bentResponse (v : Vec 2) : ℝ := 2 * v 0 - v 1 + 5 + |v 0| / 10 + if 0 ≤ v 1 then 1 / 100 else 0

noncomputable def bentSetup : Setup 2 1 := { sampleSetup with
  response := fun _ v => bentResponse v
  outs := fun v => [.ok ([("x", do let a ← v 0; let b ← v 1; pure (bentResponse ![a, b]))], [("x", some 1)])] }

noncomputable def bentTuner : OneTuner (FD 2) 2 :=
  ⟨⟨bentSetup.target, [FD.new none (fun _ => 1 / 2) false], [0, 1], fun _ => none, [("x", none)]⟩,
    [], fun _ => none, [], [], false, [], none, 5, 0⟩

theorem bentSetup_sound : bentSetup.Sound where
  gates_nodup := sampleSetup_valid.gates_nodup
  gates_all := sampleSetup_valid.gates_all
  names := sampleSetup_valid.names
  desired := sampleSetup_valid.desired
  scale := sampleSetup_valid.scale
  tolerance := sampleSetup_valid.tolerance
  nonempty := by simp
  evaluators := fun v => by
    refine ⟨fun _ => 1, fun _ => rfl, ?_⟩
    simp [evaluate, collect, bentSetup, sampleSetup, Setup.target, Target.names, Series.select,
      Series.val, List.lookup, bentResponse]

/-- The hypotheses are met with `κ = 1/40`, `δ = 1/400`, `σ = 1/2`, `ρ = 1/20` and steps of `1/2`; 8 more cycles
are enough from the voltages 8, 8, which do not meet the set point. -/
example : NearlyAffine bentSetup (1 / 40) (1 / 400) ∧ Conditioned bentSetup (1 / 2) ∧
    Real.sqrt (2 : Nat) * (1 / 40 + 1 / 400 / (1 / 2)) ≤ (1 / 20 : ℝ) ∧ (2 * (1 / 20) + 1 / 40 : ℝ) < 1 / 2 ∧
    InitialEven bentSetup (fun _ => 8) (1 / 2) bentTuner ∧ ¬ SetPointsMet bentSetup (fun _ => 8) ∧
    ∀ k tol, (bentSetup.row k).tolerance = some tol →
      ((1 / 20 + 1 / 40) / (1 / 2 - 1 / 20)) ^ (7 + 1) *
        (missing bentSetup (fun _ => 8) + steepness bentSetup * (1 / 2) + 1 / 40 * (1 / 2) + 1 / 400) +
        1 / 400 / (1 - (1 / 20 + 1 / 40) / (1 / 2 - 1 / 20)) < tol := by
  have hlen1 : ∀ f : Fin 1 → ℝ, len f = |f 0| := fun f => by
    simp [len, Real.sqrt_sq_eq_abs]
  refine ⟨?_, ?_, ?_, by norm_num, ?_, ?_, ?_⟩
  · intro v s
    rw [hlen1]
    have h0 := abs_le_len s 0
    have h1 : |(|v 0 + s 0| - |v 0|)| ≤ |s 0| := by
      have := abs_abs_sub_abs_le_abs_sub (v 0 + s 0) (v 0)
      simpa using this
    have h2 : |(if 0 ≤ v 1 + s 1 then (1 / 100 : ℝ) else 0) - if 0 ≤ v 1 then 1 / 100 else 0| ≤ 1 / 100 := by
      split_ifs <;> norm_num [abs_le]
    have e : bentSetup.response 0 (v + s) / bentSetup.scale 0 - bentSetup.response 0 v / bentSetup.scale 0 -
        ∑ i, bentSetup.grad 0 i / bentSetup.scale 0 * s i =
        1 / 40 * (|v 0 + s 0| - |v 0|) +
          1 / 4 * ((if 0 ≤ v 1 + s 1 then (1 / 100 : ℝ) else 0) - if 0 ≤ v 1 then 1 / 100 else 0) := by
      simp only [bentSetup, sampleSetup, bentResponse, Fin.sum_univ_two, Pi.add_apply, Matrix.cons_val_zero,
        Matrix.cons_val_one]
      ring
    show |bentSetup.response 0 (v + s) / bentSetup.scale 0 - bentSetup.response 0 v / bentSetup.scale 0 -
        ∑ i, bentSetup.grad 0 i / bentSetup.scale 0 * s i| ≤ _
    rw [e]
    refine (abs_add_le _ _).trans ?_
    rw [abs_mul, abs_mul]
    norm_num at h2 ⊢
    linarith
  · intro x
    rw [hlen1]
    have : len (fun i => ∑ k, x k * (bentSetup.grad k i / bentSetup.scale k)) = Real.sqrt (5 / 16) * |x 0| := by
      unfold len
      rw [← Real.sqrt_sq_eq_abs, ← Real.sqrt_mul (by norm_num)]
      congr 1
      simp [bentSetup, sampleSetup, Fin.sum_univ_two]
      ring
    rw [this]
    refine mul_le_mul_of_nonneg_right ?_ (abs_nonneg _)
    rw [Real.le_sqrt (by norm_num) (by norm_num)]
    norm_num
  · have : Real.sqrt (2 : Nat) ≤ 3 / 2 := by
      rw [Real.sqrt_le_iff]
      norm_num
    nlinarith
  · exact ⟨rfl, ⟨fun _ => none, fun _ => .inl rfl, rfl⟩, rfl, rfl, by simp [bentTuner, Series.index], rfl, rfl⟩
  · intro h
    have := h 0 (1 / 10) rfl
    simp [bentSetup, sampleSetup, bentResponse] at this
    norm_num [abs_lt] at this
  · intro k tol htol
    have ht : tol = 1 / 10 := by
      simp [bentSetup, sampleSetup] at htol
      rw [← htol]
      norm_num
    have h1 : missing bentSetup (fun _ => 8) ≤ 3 := by
      unfold missing
      rw [hlen1]
      simp [bentSetup, sampleSetup, bentResponse]
      norm_num [abs_le]
    have h2 : steepness bentSetup ≤ 1 := by
      unfold steepness
      rw [Real.sqrt_le_iff]
      simp [bentSetup, sampleSetup, Fin.sum_univ_two]
      norm_num
    rw [ht]
    norm_num
    linarith

end Qtune.EndToEnd
