import Verif.EndToEnd.SliceRun

/-!
# C168: devices that are nearly affine are tuned in small steps, too

The notions are those of `RobustSpec.lean` (`NearlyAffine`, `Conditioned`, `missing`, `steepness`); here the tuner has a maximal step size
`M`, and longer steps are made in slices of the length `M`, at most `ν` of them before the next evaluation.
-/

namespace Qtune.EndToEnd

open Qtune.Tuner Qtune.Gradient Qtune.Autotuner

variable {n m : Nat}

/-- The tuner as it is set up: the target of `S`, one fresh one-sided finite difference estimator for
each parameter, all with steps of the length `η`, no queued voltages, the maximal step size `M` and the maximal number `ν` of slices. -/
structure InitialSliced (S : Setup n m) (c : Vec n) (η M : ℝ) (ν : Nat) (t : OneTuner (FD n) n) : Prop where
  target : t.solver.target = S.target
  /-- the estimators start at `c` or without a position -/
  ests : ∃ start : Fin m → Option (Vec n), (∀ k, start k = none ∨ start k = some c) ∧
    t.solver.ests = List.ofFn fun k => FD.new (start k) (fun _ => η) false
  gates : t.solver.gates = S.gates
  index : t.solver.values.index = S.target.names
  lastIndex : t.lastValues.index ⊆ S.target.names
  queued : t.queued = 0
  maxStep : t.maxStep = some M
  maxNumber : t.maxNumber = ν

/-- What is missing after the steps for the gradients. -/
theorem missing_after {S : Setup n m} {κ δ η : ℝ} (hκ : 0 ≤ κ) (hbend : NearlyAffine S κ δ) {c q : Vec n} (hq : len (q - c) ≤ η) :
    len (S.miss q) ≤ missing S c + steepness S * η + κ * η + δ := by
  let r : Fin m → ℝ := fun k => S.response k (c + (q - c)) / S.scale k - S.response k c / S.scale k -
    ∑ i, S.grad k i / S.scale k * (q - c) i
  have hm : S.miss q = (fun k => S.desired k - S.response k c / S.scale k) +
      (-1 : ℝ) • (act S.slope (q - c) + r) := by
    funext k
    simp only [Setup.miss, act, r, Pi.add_apply, Pi.smul_apply, smul_eq_mul, Setup.slope, add_sub_cancel]
    ring
  have h1 : len (S.miss q) ≤ missing S c + (len (act S.slope (q - c)) + len r) := by
    rw [hm]
    refine (len_add _ _).trans ?_
    rw [len_smul]
    have := len_add (act S.slope (q - c)) r
    norm_num
    exact add_le_add le_rfl this
  have h2 : len r ≤ κ * len (q - c) + δ := hbend c (q - c)
  have h3 : len (act S.slope (q - c)) ≤ steepness S * len (q - c) := act_le S.slope (q - c)
  have h4 : steepness S * len (q - c) ≤ steepness S * η := mul_le_mul_of_nonneg_left hq (Real.sqrt_nonneg _)
  have h5 := mul_le_mul_of_nonneg_left hq hκ
  linarith

/-- **C168.** A device whose responses are affine up to `κ` times the length of the step and a constant `δ` is tuned in small steps: with a
maximal step size `M`, which is at least twice the step of the finite differences, and at most `ν` slices before each evaluation.
With `a = (ρ + κ) / (σ - ρ)` and every factor `f` which is at least `(1 + a) / 2` and with which `ν` slices reduce the largest distance `B` to the
set points at least to `f * B`, the tuning is complete after `3 * n + 1 + 3 * ν * (N + 1)` calls if `f ^ (N + 1) * B + 2 * δ / (1 - a)` is smaller than all
tolerances. -/
theorem nearly_affine_device_is_tuned_in_slices {S : Setup n m} (hS : S.Sound) {κ δ σ ρ η M a f B : ℝ} {ν : Nat} (hκ : 0 ≤ κ) (hδ : 0 ≤ δ)
    (hη : 0 < η) (hM : 2 * η ≤ M) (hν : 1 ≤ ν) (hbend : NearlyAffine S κ δ) (hσ : Conditioned S σ)
    (hρ : Real.sqrt n * (κ + δ / η) ≤ ρ) (hρσ : 2 * ρ + κ < σ) {orth : Orth n} (ho : OrthSpec orth)
    {lstsq : Newton.Lstsq (Fin n)} (hls : Newton.LstsqSpec lstsq) (c : Vec n) (t : OneTuner (FD n) n)
    (ht : InitialSliced S c η M ν t) (ha : a = (ρ + κ) / (σ - ρ)) (hB : B = missing S c + steepness S * η + κ * η + δ)
    (hf : (1 + a) / 2 ≤ f) (hf' : B - ((σ - 2 * ρ - κ) * (ν * M) - δ) ≤ f * B) (hf1 : f ≤ 1) (N : Nat)
    (htol : ∀ k tol, (S.row k).tolerance = some tol → f ^ (N + 1) * B + 2 * δ / (1 - a) < tol) :
    CompletesWithin S (fdI orth) lstsq (3 * n + 1 + 3 * ν * (N + 1)) (fresh t (volts c)) := by
  have hρ0 : 0 ≤ ρ := le_trans (by positivity) hρ
  have hτ : 0 < σ - ρ := by linarith
  have ha1 : a < 1 := by rw [ha, div_lt_one hτ]; linarith
  have hn := gates_of_conditioned hS (by linarith) hσ
  obtain ⟨start, hstart, hests⟩ := ht.ests
  have hB0 : 0 ≤ B := by
    have h1 : 0 ≤ missing S c := len_nonneg _
    have h2 : 0 ≤ steepness S := Real.sqrt_nonneg _
    rw [hB]
    positivity
  refine first_phase_any hS hn ho c t (B := η) (η := some η) hstart (fun _ _ => ⟨hη, le_refl _⟩)
    (fun k h hh i => by cases hh; rfl)
    ⟨ht.target, hests, ht.gates, ht.index, rfl, rfl, ht.queued, ht.lastIndex⟩ (by
      intro M' hM'
      rw [ht.maxStep] at hM'
      cases hM'
      exact hM) _ ?_
  intro E q t' d G hAt hq hd hsp hG
  rw [ht.maxStep, ht.maxNumber] at hAt
  have hfrob := secants_close hbend hη hρ hsp hG (by positivity)
  have hag : (1 - a) * (σ - ρ) = σ - 2 * ρ - κ := by
    rw [ha]
    field_simp
    ring
  have hΔ0 : 0 ≤ 2 * δ / (1 - a) := div_nonneg (by linarith) (by linarith)
  refine sliced_phase hS hbend hκ hδ hσ hρ0 hρσ hls (by linarith) hν ha rfl hf (B := B) (by rw [hag]; exact hf') hf1 hfrob N E q t' B hAt
    (fun k => (hG k).1) hB0 le_rfl ?_ htol
  have := missing_after hκ hbend hq
  rw [← hB] at this
  linarith

/-- **C168**, in short: if `δ` is less than what `ν` slices gain, and all tolerances are larger than `2 * δ / (1 - a)`, the tuning is complete after
finitely many calls. -/
theorem nearly_affine_device_is_tuned_in_slices_eventually {S : Setup n m} (hS : S.Sound) {κ δ σ ρ η M : ℝ} {ν : Nat} (hκ : 0 ≤ κ)
    (hδ : 0 ≤ δ) (hη : 0 < η) (hM : 2 * η ≤ M) (hν : 1 ≤ ν) (hbend : NearlyAffine S κ δ) (hσ : Conditioned S σ)
    (hρ : Real.sqrt n * (κ + δ / η) ≤ ρ) (hρσ : 2 * ρ + κ < σ) {orth : Orth n} (ho : OrthSpec orth)
    {lstsq : Newton.Lstsq (Fin n)} (hls : Newton.LstsqSpec lstsq) (c : Vec n) (t : OneTuner (FD n) n)
    (ht : InitialSliced S c η M ν t) (hgain : δ < (σ - 2 * ρ - κ) * (ν * M))
    (htol : ∀ k tol, (S.row k).tolerance = some tol → 2 * δ / (1 - (ρ + κ) / (σ - ρ)) < tol) :
    ∃ N, CompletesWithin S (fdI orth) lstsq N (fresh t (volts c)) := by
  have hρ0 : 0 ≤ ρ := le_trans (by positivity) hρ
  have hτ : 0 < σ - ρ := by linarith
  obtain ⟨a, ha⟩ : ∃ a, a = (ρ + κ) / (σ - ρ) := ⟨_, rfl⟩
  obtain ⟨B, hB⟩ : ∃ B, B = missing S c + steepness S * η + κ * η + δ := ⟨_, rfl⟩
  obtain ⟨g, hg⟩ : ∃ g, g = (σ - 2 * ρ - κ) * (ν * M) - δ := ⟨_, rfl⟩
  have hg0 : 0 < g := by rw [hg]; linarith
  have ha0 : 0 ≤ a := by rw [ha]; positivity
  have ha1 : a < 1 := by rw [ha, div_lt_one hτ]; linarith
  have hB0 : 0 ≤ B := by
    have h1 : 0 ≤ missing S c := len_nonneg _
    have h2 : 0 ≤ steepness S := Real.sqrt_nonneg _
    rw [hB]
    positivity
  obtain ⟨f, hfa, hfg, hf1⟩ : ∃ f, (1 + a) / 2 ≤ f ∧ B - g ≤ f * B ∧ f < 1 := by
    refine ⟨max ((1 + a) / 2) (1 - g / (B + g)), le_max_left _ _, ?_, max_lt (by linarith) ?_⟩
    · have h1 : (1 - g / (B + g)) * B ≤ max ((1 + a) / 2) (1 - g / (B + g)) * B :=
        mul_le_mul_of_nonneg_right (le_max_right _ _) hB0
      refine le_trans ?_ h1
      have h2 : g / (B + g) * B ≤ g := by
        rw [div_mul_eq_mul_div, div_le_iff₀ (by linarith)]
        nlinarith
      linarith
    · have : 0 < g / (B + g) := div_pos hg0 (by linarith)
      linarith
  have hf0 : 0 ≤ f := by linarith
  have hlim : Filter.Tendsto (fun N : Nat => f ^ (N + 1) * B + 2 * δ / (1 - a)) Filter.atTop (nhds (0 * B + 2 * δ / (1 - a))) :=
    (((tendsto_pow_atTop_nhds_zero_of_lt_one hf0 hf1).comp (Filter.tendsto_add_atTop_nat 1)).mul_const _).add_const _
  rw [zero_mul, zero_add] at hlim
  have hev : ∀ᶠ N : Nat in Filter.atTop, ∀ k : Fin m, ∀ tol, (S.row k).tolerance = some tol →
      f ^ (N + 1) * B + 2 * δ / (1 - a) < tol := by
    rw [Filter.eventually_all]
    intro k
    cases hk : (S.row k).tolerance with
    | none => exact Filter.Eventually.of_forall fun _ _ h => by cases h
    | some tol =>
      have h1 := htol k tol hk
      rw [← ha] at h1
      filter_upwards [hlim.eventually_lt_const h1] with N hN tol' htol'
      cases htol'
      exact hN
  obtain ⟨N, hN⟩ := hev.exists
  exact ⟨_, nearly_affine_device_is_tuned_in_slices hS hκ hδ hη hM hν hbend hσ hρ hρσ ho hls c t ht ha hB hfa
    (by rw [← hg]; exact hfg) hf1.le N hN⟩

/-! ### A device and a tuner that meet the hypotheses -/

/-- A tuner which makes at most two slices of the length 1 before each evaluation. -/
noncomputable def slicedTuner : OneTuner (FD 2) 2 := { bentTuner with maxStep := some 1, maxNumber := 2 }

/-- The hypotheses are met with `κ = 1/40`, `δ = 1/400`, `σ = 1/2`, `ρ = 1/20` and steps of `1/2`; the voltages -8, -8 do not meet the set point, and are
several slices away from it. -/
example : NearlyAffine bentSetup (1 / 40) (1 / 400) ∧ Conditioned bentSetup (1 / 2) ∧
    Real.sqrt (2 : Nat) * (1 / 40 + 1 / 400 / (1 / 2)) ≤ (1 / 20 : ℝ) ∧ (2 * (1 / 20) + 1 / 40 : ℝ) < 1 / 2 ∧
    InitialSliced bentSetup (fun _ => -8) (1 / 2) 1 2 slicedTuner ∧ ¬ SetPointsMet bentSetup (fun _ => -8) ∧
    (1 / 400 : ℝ) < (1 / 2 - 2 * (1 / 20) - 1 / 40) * ((2 : Nat) * 1) ∧ 3 < missing bentSetup (fun _ => -8) ∧
    ∀ k tol, (bentSetup.row k).tolerance = some tol → 2 * (1 / 400 : ℝ) / (1 - (1 / 20 + 1 / 40) / (1 / 2 - 1 / 20)) < tol := by
  have hlen1 : ∀ f : Fin 1 → ℝ, len f = |f 0| := fun f => by
    simp [len, Real.sqrt_sq_eq_abs]
  refine ⟨?_, ?_, ?_, by norm_num, ?_, ?_, by norm_num, ?_, ?_⟩
  · intro v s
    have h0 := abs_le_len s 0
    have h1 : |(|v 0 + s 0| - |v 0|)| ≤ |s 0| := by
      have := abs_abs_sub_abs_le_abs_sub (v 0 + s 0) (v 0)
      simpa using this
    have h2 : |(if 0 ≤ v 1 + s 1 then (1 / 100 : ℝ) else 0) - if 0 ≤ v 1 then 1 / 100 else 0| ≤ 1 / 100 := by
      split_ifs <;> norm_num [abs_le]
    have e : bentSetup.response 0 (v + s) / bentSetup.scale 0 - bentSetup.response 0 v / bentSetup.scale 0 -
        ∑ i, bentSetup.grad 0 i / bentSetup.scale 0 * s i =
        1 / 40 * (|v 0 + s 0| - |v 0|) +
          1 / 4 * ((if 0 ≤ v 1 + s 1 then (1 / 100 : ℝ) else 0) - if 0 ≤ v 1 then 1 / 100 else 0) := by
      simp only [bentSetup, sampleSetup, bentResponse, Fin.sum_univ_two, Pi.add_apply, Matrix.cons_val_zero,
        Matrix.cons_val_one]
      ring
    rw [hlen1]
    show |bentSetup.response 0 (v + s) / bentSetup.scale 0 - bentSetup.response 0 v / bentSetup.scale 0 -
        ∑ i, bentSetup.grad 0 i / bentSetup.scale 0 * s i| ≤ _
    rw [e]
    refine (abs_add_le _ _).trans ?_
    rw [abs_mul, abs_mul]
    norm_num at h2 ⊢
    linarith
  · intro x
    rw [hlen1]
    have : len (fun i => ∑ k, x k * (bentSetup.grad k i / bentSetup.scale k)) = Real.sqrt (5 / 16) * |x 0| := by
      unfold len
      rw [← Real.sqrt_sq_eq_abs, ← Real.sqrt_mul (by norm_num)]
      congr 1
      simp [bentSetup, sampleSetup, Fin.sum_univ_two]
      ring
    rw [this]
    refine mul_le_mul_of_nonneg_right ?_ (abs_nonneg _)
    rw [Real.le_sqrt (by norm_num) (by norm_num)]
    norm_num
  · have : Real.sqrt (2 : Nat) ≤ 3 / 2 := by
      rw [Real.sqrt_le_iff]
      norm_num
    nlinarith
  · exact ⟨rfl, ⟨fun _ => none, fun _ => .inl rfl, rfl⟩, rfl, rfl, by simp [slicedTuner, bentTuner, Series.index], rfl, rfl, rfl⟩
  · intro h
    have := h 0 (1 / 10) rfl
    simp [bentSetup, sampleSetup, bentResponse] at this
    norm_num [abs_lt] at this
  · unfold missing
    rw [hlen1]
    simp [bentSetup, sampleSetup, bentResponse]
    norm_num [lt_abs]
  · intro k tol htol
    have ht : tol = 1 / 10 := by
      simp [bentSetup, sampleSetup] at htol
      rw [← htol]
      norm_num
    rw [ht]
    norm_num

end Qtune.EndToEnd
