import Verif.EndToEnd.NoiseRun

/-!
# End to end: a nearly affine device is tuned although every measurement is wrong in another way
-/

namespace Qtune.EndToEnd

open Qtune.Tuner Qtune.Gradient Qtune.Autotuner

variable {n m : Nat}

/-- Two measurements differ by what the gradients say, up to the curvature and twice the noise. -/
theorem measured_nearly_affine {D : Noisy n m} {κ δ ν : ℝ} (hbend : NearlyAffine D.device κ δ) (hnoise : D.Bounded ν)
    (i j : Nat) (v s : Vec n) :
    len (fun k => D.measured j k (v + s) / D.device.scale k - D.measured i k v / D.device.scale k -
      ∑ a, D.device.grad k a / D.device.scale k * s a) ≤ κ * len s + (δ + 2 * ν) := by
  have h1 := hbend v s
  have h2 := hnoise j (v + s)
  have h3 := hnoise i v
  let r : Fin m → ℝ := fun k => D.device.response k (v + s) / D.device.scale k -
    D.device.response k v / D.device.scale k - ∑ a, D.device.grad k a / D.device.scale k * s a
  let e : Nat → Vec n → Fin m → ℝ := fun j v k =>
    D.measured j k v / D.device.scale k - D.device.response k v / D.device.scale k
  have h4 : (fun k => D.measured j k (v + s) / D.device.scale k - D.measured i k v / D.device.scale k -
      ∑ a, D.device.grad k a / D.device.scale k * s a) = r + (e j (v + s) + (-1 : ℝ) • e i v) := by
    funext k
    simp only [r, e, Pi.add_apply, Pi.smul_apply, smul_eq_mul]
    ring
  rw [h4]
  have h5 := len_add r (e j (v + s) + (-1 : ℝ) • e i v)
  have h6 := len_add (e j (v + s)) ((-1 : ℝ) • e i v)
  rw [len_smul, abs_neg, abs_one, one_mul] at h6
  have h7 : len r ≤ κ * len s + δ := h1
  have h8 : len (e j (v + s)) ≤ ν := h2
  have h9 : len (e i v) ≤ ν := h3
  linarith

/-- The differences of the measured values give gradients that are close to the true ones. -/
theorem noisy_secants_close {D : Noisy n m} {κ δ ν η ρ : ℝ} (hbend : NearlyAffine D.device κ δ)
    (hnoise : D.Bounded ν) (hη : 0 < η) (hρ : Real.sqrt n * (κ + (δ + 2 * ν) / η) ≤ ρ) {c : Vec n}
    {d : Fin n → Vec n} (hsp : Spread (some η) d) {G : Fin m → Vec n} {E : Fin m → FD n}
    {j₀ : Nat} (hG : NoisySecants D j₀ c d G E) (hb : 0 ≤ κ * η + (δ + 2 * ν)) : frob (G - D.device.slope) ≤ ρ := by
  obtain ⟨f, ⟨hi, hf⟩, hG⟩ := hG
  refine differences_close hη hρ hsp hb fun a => ?_
  obtain ⟨j, -, -, hj⟩ := hf a
  have h1 := measured_nearly_affine hbend hnoise j₀ j c (d a)
  rw [(hsp η rfl).1 a] at h1
  refine le_trans (le_of_eq ?_) h1
  congr 1
  funext k
  rw [(hG k).2 a, hj k, hi k]
  rfl

/-- **C126**.  An autotuner whose single tuner uses a Newton solver and one-sided finite difference estimators with
steps of the length `η` tunes every nearly affine device although each evaluation is wrong in another way: by at most
`ν`, and otherwise arbitrarily.  `σ` says how well the gradients are conditioned, `κ` and `δ` how far the
responses are from being affine, `ρ` how wrong the measured gradients can be.  If the tolerances are larger than
`a ^ (N + 1)` times what can be missing after the gradients have been measured plus `(δ + 2 * ν) / (1 - a)`, with
`a = (ρ + κ) / (σ - ρ)`, `iterate` called at most `3 * n + 1 + 3 * (N + 1)` times never raises and ends with the
tuning complete, and the true responses are then off the set points by less than the tolerances plus `ν`. -/
theorem noisy_device_is_tuned {D : Noisy n m} (hD : D.Sound) {κ δ ν σ ρ η : ℝ} (hκ : 0 ≤ κ) (hδ : 0 ≤ δ)
    (hν : 0 ≤ ν) (hη : 0 < η) (hbend : NearlyAffine D.device κ δ) (hnoise : D.Bounded ν)
    (hσ : Conditioned D.device σ) (hρ : Real.sqrt n * (κ + (δ + 2 * ν) / η) ≤ ρ)
    (hρσ : 2 * ρ + κ < σ) {orth : Orth n} (ho : OrthSpec orth) {lstsq : Newton.Lstsq (Fin n)}
    (hls : Newton.LstsqSpec lstsq) (c : Vec n) (t : OneTuner (FD n) n) (ht : InitialEven D.device c η t) (j : Nat)
    (N : Nat) (htol : ∀ k tol, (D.device.row k).tolerance = some tol →
      ((ρ + κ) / (σ - ρ)) ^ (N + 1) * (missing D.device c + steepness D.device * η + κ * η + (δ + 2 * ν)) +
        (δ + 2 * ν) / (1 - (ρ + κ) / (σ - ρ)) < tol) :
    D.CompletesWithin ν (fdI orth) lstsq (3 * n + 1 + 3 * (N + 1)) (fresh t (volts c, j)) := by
  have hρ0 : 0 ≤ ρ := le_trans (by positivity) hρ
  have hn : n ≠ 0 := gates_of_conditioned (hD 0) (σ := σ) (by linarith) hσ
  have hrun : CompletesN D (fdI orth) lstsq (3 * n + 1 + 3 * (N + 1)) (fresh t (volts c, j)) := by
    refine noisy_first hD hn ho c t hη j ht _ ?_
    intro E q t' d G hAt hq hd hsp hG
    obtain ⟨i, hij⟩ : ∃ i, i = j + n := ⟨_, rfl⟩
    rw [← hij] at hAt ⊢
    have hfrob := noisy_secants_close hbend hnoise hη hρ hsp hG (by positivity)
    obtain ⟨f, hf, hG'⟩ := hG
    refine noisy_phase hD hκ (fun j => measured_nearly_affine hbend hnoise j (j + 1)) hσ hρ0 hρσ hls rfl hfrob N E q t' _ i hAt
      (fun k => (hG' k).1) ?_ htol
    have hτ : 0 < σ - ρ := by linarith
    have ha1 : 0 < 1 - (ρ + κ) / (σ - ρ) := by
      rw [sub_pos, div_lt_one hτ]; linarith
    have hpos : 0 ≤ (δ + 2 * ν) / (1 - (ρ + κ) / (σ - ρ)) := by positivity
    let S := D.device
    let r : Fin m → ℝ := fun k => S.response k (c + (q - c)) / S.scale k - S.response k c / S.scale k -
      ∑ i, S.grad k i / S.scale k * (q - c) i
    let e : Fin m → ℝ := fun k => D.measured i k q / S.scale k - S.response k q / S.scale k
    have hm : (D.at i).miss q = (fun k => S.desired k - S.response k c / S.scale k) +
        (-1 : ℝ) • (act S.slope (q - c) + (r + e)) := by
      funext k
      simp only [Setup.miss, act, r, e, S, Pi.add_apply, Pi.smul_apply, smul_eq_mul, Setup.slope, add_sub_cancel,
        Noisy.at]
      ring
    have h1 : len ((D.at i).miss q) ≤ missing S c + (len (act S.slope (q - c)) + (len r + len e)) := by
      rw [hm]
      refine (len_add _ _).trans ?_
      rw [len_smul]
      have h2 := len_add (act S.slope (q - c)) (r + e)
      have h3 := len_add r e
      norm_num
      exact add_le_add le_rfl (h2.trans (add_le_add le_rfl h3))
    have h2 : len r ≤ κ * len (q - c) + δ := hbend c (q - c)
    have h3 : len (act S.slope (q - c)) ≤ steepness S * len (q - c) := act_le S.slope (q - c)
    have h4 : steepness S * len (q - c) ≤ steepness S * η := mul_le_mul_of_nonneg_left hq (Real.sqrt_nonneg _)
    have h5 := mul_le_mul_of_nonneg_left hq hκ
    have h6 : len e ≤ ν := hnoise i q
    show _ ≤ missing S c + steepness S * η + κ * η + (δ + 2 * ν) + _
    linarith
  obtain ⟨M, hM, s', hs', hc, q, i, hq, hmet⟩ := hrun
  refine ⟨M, hM, s', hs', hc, q, by rw [hq], fun k tol hk => ?_⟩
  have h1 : |D.device.desired k - D.measured i k q / D.device.scale k| < tol := hmet k tol hk
  have h2 := (abs_le_len (fun k => D.measured i k q / D.device.scale k - D.device.response k q / D.device.scale k) k).trans
    (hnoise i q)
  have h3 := abs_add_le (D.device.desired k - D.measured i k q / D.device.scale k)
    (D.measured i k q / D.device.scale k - D.device.response k q / D.device.scale k)
  rw [sub_add_sub_cancel] at h3
  linarith

/-- **C126**, in short: if all tolerances are larger than `(δ + 2 * ν) / (1 - a)`, the tuning is complete after
finitely many calls; their number depends on the device and on `ν`, but not on the noise. -/
theorem noisy_device_is_tuned_eventually {S : Setup n m} {κ δ ν σ ρ η : ℝ}
    (hκ : 0 ≤ κ) (hδ : 0 ≤ δ) (hν : 0 ≤ ν) (hη : 0 < η) (hbend : NearlyAffine S κ δ)
    (hσ : Conditioned S σ) (hρ : Real.sqrt n * (κ + (δ + 2 * ν) / η) ≤ ρ) (hρσ : 2 * ρ + κ < σ)
    {orth : Orth n} (ho : OrthSpec orth) {lstsq : Newton.Lstsq (Fin n)} (hls : Newton.LstsqSpec lstsq) (c : Vec n)
    (t : OneTuner (FD n) n) (ht : InitialEven S c η t)
    (htol : ∀ k tol, (S.row k).tolerance = some tol → (δ + 2 * ν) / (1 - (ρ + κ) / (σ - ρ)) < tol) :
    ∃ N, ∀ D : Noisy n m, D.device = S → D.Sound → D.Bounded ν →
      ∀ j, D.CompletesWithin ν (fdI orth) lstsq N (fresh t (volts c, j)) := by
  have hρ0 : 0 ≤ ρ := le_trans (by positivity) hρ
  have hτ : 0 < σ - ρ := by linarith
  have ha0 : 0 ≤ (ρ + κ) / (σ - ρ) := by positivity
  have ha1 : (ρ + κ) / (σ - ρ) < 1 := by rw [div_lt_one hτ]; linarith
  have hlim : Filter.Tendsto (fun N : Nat => ((ρ + κ) / (σ - ρ)) ^ (N + 1) *
      (missing S c + steepness S * η + κ * η + (δ + 2 * ν)) + (δ + 2 * ν) / (1 - (ρ + κ) / (σ - ρ))) Filter.atTop
      (nhds (0 * (missing S c + steepness S * η + κ * η + (δ + 2 * ν)) + (δ + 2 * ν) / (1 - (ρ + κ) / (σ - ρ)))) :=
    (((tendsto_pow_atTop_nhds_zero_of_lt_one ha0 ha1).comp (Filter.tendsto_add_atTop_nat 1)).mul_const _).add_const _
  rw [zero_mul, zero_add] at hlim
  have hev : ∀ᶠ N : Nat in Filter.atTop, ∀ k : Fin m, ∀ tol, (S.row k).tolerance = some tol →
      ((ρ + κ) / (σ - ρ)) ^ (N + 1) * (missing S c + steepness S * η + κ * η + (δ + 2 * ν)) +
        (δ + 2 * ν) / (1 - (ρ + κ) / (σ - ρ)) < tol := by
    rw [Filter.eventually_all]
    intro k
    cases hk : (S.row k).tolerance with
    | none => exact Filter.Eventually.of_forall fun _ _ h => by cases h
    | some tol =>
      filter_upwards [hlim.eventually_lt_const (htol k tol hk)] with N hN tol' htol'
      cases htol'
      exact hN
  obtain ⟨N, hN⟩ := hev.exists
  refine ⟨3 * n + 1 + 3 * (N + 1), fun D hDS hD hnoise j => ?_⟩
  subst hDS
  exact noisy_device_is_tuned hD hκ hδ hν hη hbend hnoise hσ hρ hρσ ho hls c t ht j N hN

/-! ### A device that meets the hypotheses -/

/-- The measured value is too large and too small by turns. -/
noncomputable def alternating (j : Nat) : ℝ := if j % 2 = 0 then 1 / 500 else -1 / 500

/-- `bentSetup` with this noise. -/
noncomputable def noisyBent : Noisy 2 1 where
  device := bentSetup
  measured := fun j _ v => bentResponse v + alternating j
  outs := fun j v =>
    [.ok ([("x", do let a ← v 0; let b ← v 1; pure (bentResponse ![a, b] + alternating j))], [("x", some 1)])]

/-- The hypotheses are met with `ν = 1/2000` and otherwise as for `bentSetup`. -/
example : noisyBent.Sound ∧ noisyBent.Bounded (1 / 2000) ∧ noisyBent.device = bentSetup ∧
    (∀ v, noisyBent.measured 0 0 v ≠ noisyBent.measured 1 0 v) ∧
    Real.sqrt (2 : Nat) * (1 / 40 + (1 / 400 + 2 * (1 / 2000)) / (1 / 2)) ≤ (1 / 20 : ℝ) ∧
    ∀ k tol, (bentSetup.row k).tolerance = some tol →
      (1 / 400 + 2 * (1 / 2000)) / (1 - (1 / 20 + 1 / 40) / (1 / 2 - 1 / 20)) < tol := by
  refine ⟨fun j => ?_, fun j v => ?_, rfl, fun v => ?_, ?_, fun k tol htol => ?_⟩
  · exact
      { gates_nodup := sampleSetup_valid.gates_nodup
        gates_all := sampleSetup_valid.gates_all
        names := sampleSetup_valid.names
        desired := sampleSetup_valid.desired
        scale := sampleSetup_valid.scale
        tolerance := sampleSetup_valid.tolerance
        nonempty := by simp
        evaluators := fun v => by
          refine ⟨fun _ => 1, fun _ => rfl, ?_⟩
          simp [evaluate, collect, noisyBent, Noisy.at, bentSetup, sampleSetup, Setup.target, Target.names,
            Series.select, Series.val, List.lookup, bentResponse] }
  · have hlen1 : ∀ f : Fin 1 → ℝ, len f = |f 0| := fun f => by
      simp [len, Real.sqrt_sq_eq_abs]
    rw [hlen1]
    simp only [noisyBent, bentSetup, sampleSetup, alternating]
    split_ifs <;> rw [abs_le] <;> constructor <;> ring_nf <;> norm_num
  · simp only [noisyBent, alternating]
    norm_num
  · have : Real.sqrt (2 : Nat) ≤ 3 / 2 := by
      rw [Real.sqrt_le_iff]
      norm_num
    nlinarith
  · have ht : tol = 1 / 10 := by
      simp [bentSetup, sampleSetup] at htol
      rw [← htol]
      norm_num
    rw [ht]
    norm_num

end Qtune.EndToEnd
