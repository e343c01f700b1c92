import Verif.EndToEnd.DriftSpec
import Verif.EndToEnd.PropsNoise

/-!
# End to end: a device that drifts slowly is tuned
-/

namespace Qtune.EndToEnd

open Qtune.Tuner Qtune.Gradient Qtune.Autotuner

variable {n m : Nat}

/-- The gradients that are measured while the device drifts are close to the true ones. -/
theorem drifting_secants_close {D : Noisy n m} {κ δ ω η ρ : ℝ} (hdrift : D.Drifts κ δ ω) (hω : 0 ≤ ω) (hη : 0 < η)
    (hρ : Real.sqrt n * (κ + (δ + ω * n) / η) ≤ ρ) {c : Vec n} {d : Fin n → Vec n} (hsp : Spread (some η) d)
    {G : Fin m → Vec n} {E : Fin m → FD n} {j₀ : Nat} (hG : NoisySecants D j₀ c d G E)
    (hb : 0 ≤ κ * η + (δ + ω * n)) : frob (G - D.device.slope) ≤ ρ := by
  obtain ⟨f, ⟨hi, hf⟩, hG⟩ := hG
  refine differences_close hη hρ hsp hb fun a => ?_
  obtain ⟨j, h0, h1, hj⟩ := hf a
  have h2 := hdrift j₀ j c (d a) h0
  rw [(hsp η rfl).1 a] at h2
  have h3 : (j : ℝ) - j₀ ≤ n := by
    have : (j : ℝ) ≤ ((j₀ + n : Nat) : ℝ) := by exact_mod_cast h1
    push_cast at this
    linarith
  have h4 := mul_le_mul_of_nonneg_left h3 hω
  refine le_trans (le_of_eq ?_) (h2.trans (by linarith))
  congr 1
  funext k
  rw [(hG k).2 a, hj k, hi k]
  rfl

/-- **C200**.  An autotuner whose single tuner uses a Newton solver and one-sided finite difference estimators with
steps of the length `η` tunes every nearly affine device that drifts by at most `ω` from one evaluation to the next, in
any direction and for any time.  `σ` says how well the gradients are conditioned, `κ` and `δ` how far the responses are
from being affine, `ρ` how wrong the measured gradients can be: the drift during the `n + 1` measurements of the
gradients enters there.  If the tolerances are larger than `a ^ (N + 1)` times what can be missing after the gradients
have been measured plus `(δ + ω) / (1 - a)`, with `a = (ρ + κ) / (σ - ρ)`, `iterate` called at most
`3 * n + 1 + 3 * (N + 1)` times never raises and ends with the tuning complete. -/
theorem drifting_device_is_tuned {D : Noisy n m} (hD : D.Sound) {κ δ ω σ ρ η : ℝ} (hκ : 0 ≤ κ) (hδ : 0 ≤ δ)
    (hω : 0 ≤ ω) (hη : 0 < η) (hdrift : D.Drifts κ δ ω) (hσ : Conditioned D.device σ)
    (hρ : Real.sqrt n * (κ + (δ + ω * n) / η) ≤ ρ) (hρσ : 2 * ρ + κ < σ) {orth : Orth n} (ho : OrthSpec orth)
    {lstsq : Newton.Lstsq (Fin n)} (hls : Newton.LstsqSpec lstsq) (c : Vec n) (t : OneTuner (FD n) n)
    (ht : InitialEven D.device c η t) (j : Nat) (N : Nat)
    (htol : ∀ k tol, (D.device.row k).tolerance = some tol →
      ((ρ + κ) / (σ - ρ)) ^ (N + 1) * (D.missing j c + steepness D.device * η + κ * η + (δ + ω * n)) +
        (δ + ω) / (1 - (ρ + κ) / (σ - ρ)) < tol) :
    D.CompletesDrifting (fdI orth) lstsq (3 * n + 1 + 3 * (N + 1)) (fresh t (volts c, j)) := by
  have hρ0 : 0 ≤ ρ := le_trans (by positivity) hρ
  have hn : n ≠ 0 := gates_of_conditioned (hD 0) (σ := σ) (by linarith) hσ
  have hrun : CompletesN D (fdI orth) lstsq (3 * n + 1 + 3 * (N + 1)) (fresh t (volts c, j)) := by
    refine noisy_first hD hn ho c t hη j ht _ ?_
    intro E q t' d G hAt hq hd hsp hG
    have hfrob := drifting_secants_close hdrift hω hη hρ hsp hG (by positivity)
    obtain ⟨f, hf, hG'⟩ := hG
    refine noisy_phase (δ := δ + ω) hD hκ (fun j v s => ?_) hσ hρ0 hρσ hls rfl hfrob N E q t' _ _ hAt
      (fun k => (hG' k).1) ?_ htol
    · have := hdrift j (j + 1) v s (by omega)
      push_cast at this
      linarith
    · have hτ : 0 < σ - ρ := by linarith
      have ha1 : 0 < 1 - (ρ + κ) / (σ - ρ) := by
        rw [sub_pos, div_lt_one hτ]; linarith
      have hpos : 0 ≤ (δ + ω) / (1 - (ρ + κ) / (σ - ρ)) := by positivity
      let S := D.device
      let r : Fin m → ℝ := fun k => D.measured (j + n) k (c + (q - c)) / S.scale k - D.measured j k c / S.scale k -
        ∑ i, S.grad k i / S.scale k * (q - c) i
      have hm : (D.at (j + n)).miss q = (fun k => S.desired k - D.measured j k c / S.scale k) +
          (-1 : ℝ) • (act S.slope (q - c) + r) := by
        funext k
        simp only [Setup.miss, act, r, S, Pi.add_apply, Pi.smul_apply, smul_eq_mul, Setup.slope, add_sub_cancel,
          Noisy.at]
        ring
      have h1 : len ((D.at (j + n)).miss q) ≤ D.missing j c + (len (act S.slope (q - c)) + len r) := by
        rw [hm]
        refine (len_add _ _).trans ?_
        rw [len_smul]
        have h2 := len_add (act S.slope (q - c)) r
        norm_num
        exact add_le_add le_rfl h2
      have h2 : len r ≤ κ * len (q - c) + δ + ω * (((j + n : Nat) : ℝ) - j) := hdrift j (j + n) c (q - c) (by omega)
      have h3 : len (act S.slope (q - c)) ≤ steepness S * len (q - c) := act_le S.slope (q - c)
      have h4 : steepness S * len (q - c) ≤ steepness S * η := mul_le_mul_of_nonneg_left hq (Real.sqrt_nonneg _)
      have h5 := mul_le_mul_of_nonneg_left hq hκ
      push_cast at h2
      rw [add_sub_cancel_left] at h2
      show _ ≤ D.missing j c + steepness S * η + κ * η + (δ + ω * n) + _
      linarith
  exact hrun

/-- **C200**, in short: if all tolerances are larger than `(δ + ω) / (1 - a)`, the tuning is complete after finitely
many calls; their number does not depend on how the device drifts. -/
theorem drifting_device_is_tuned_eventually {S : Setup n m} {κ δ ω σ ρ η : ℝ}
    (hκ : 0 ≤ κ) (hδ : 0 ≤ δ) (hω : 0 ≤ ω) (hη : 0 < η) (hσ : Conditioned S σ)
    (hρ : Real.sqrt n * (κ + (δ + ω * n) / η) ≤ ρ) (hρσ : 2 * ρ + κ < σ)
    {orth : Orth n} (ho : OrthSpec orth) {lstsq : Newton.Lstsq (Fin n)} (hls : Newton.LstsqSpec lstsq) (c : Vec n)
    (t : OneTuner (FD n) n) (ht : InitialEven S c η t) (b : ℝ)
    (htol : ∀ k tol, (S.row k).tolerance = some tol → (δ + ω) / (1 - (ρ + κ) / (σ - ρ)) < tol) :
    ∃ N, ∀ (D : Noisy n m) (j : Nat), D.device = S → D.Sound → D.Drifts κ δ ω → D.missing j c ≤ b →
      D.CompletesDrifting (fdI orth) lstsq N (fresh t (volts c, j)) := by
  have hρ0 : 0 ≤ ρ := le_trans (by positivity) hρ
  have hτ : 0 < σ - ρ := by linarith
  have ha0 : 0 ≤ (ρ + κ) / (σ - ρ) := by positivity
  have ha1 : (ρ + κ) / (σ - ρ) < 1 := by rw [div_lt_one hτ]; linarith
  have hlim : Filter.Tendsto (fun N : Nat => ((ρ + κ) / (σ - ρ)) ^ (N + 1) *
      (b + steepness S * η + κ * η + (δ + ω * n)) + (δ + ω) / (1 - (ρ + κ) / (σ - ρ))) Filter.atTop
      (nhds (0 * (b + steepness S * η + κ * η + (δ + ω * n)) + (δ + ω) / (1 - (ρ + κ) / (σ - ρ)))) :=
    (((tendsto_pow_atTop_nhds_zero_of_lt_one ha0 ha1).comp (Filter.tendsto_add_atTop_nat 1)).mul_const _).add_const _
  rw [zero_mul, zero_add] at hlim
  have hev : ∀ᶠ N : Nat in Filter.atTop, ∀ k : Fin m, ∀ tol, (S.row k).tolerance = some tol →
      ((ρ + κ) / (σ - ρ)) ^ (N + 1) * (b + steepness S * η + κ * η + (δ + ω * n)) +
        (δ + ω) / (1 - (ρ + κ) / (σ - ρ)) < tol := by
    rw [Filter.eventually_all]
    intro k
    cases hk : (S.row k).tolerance with
    | none => exact Filter.Eventually.of_forall fun _ _ h => by cases h
    | some tol =>
      filter_upwards [hlim.eventually_lt_const (htol k tol hk)] with N hN tol' htol'
      cases htol'
      exact hN
  obtain ⟨N, hN⟩ := hev.exists
  refine ⟨3 * n + 1 + 3 * (N + 1), fun D j hDS hD hdrift hb => ?_⟩
  subst hDS
  refine drifting_device_is_tuned hD hκ hδ hω hη hdrift hσ hρ hρσ ho hls c t ht j N fun k tol hk => ?_
  refine lt_of_le_of_lt ?_ (hN k tol hk)
  have := mul_le_mul_of_nonneg_left hb (pow_nonneg ha0 (N + 1))
  linarith

/-- **C200**, the limit: once the tuning is complete the drift goes on unnoticed.  Every further call of `iterate`
raises and evaluates nothing, whatever the device does meanwhile. -/
theorem drift_after_completion_unnoticed {X : Type} (D : Noisy n m) (I : Newton.EstI X (Fin n)) (lstsq : Newton.Lstsq (Fin n))
    (s : Autotuner.State (OneTuner X n) (Volt (Fin n) × Nat) (Volt (Fin n)))
    (hs : isComplete (noisy I lstsq D.outs) s = true) (save : Except PyErr Unit) :
    iterate (noisy I lstsq D.outs) save s = (s, [], .error errComplete) := by
  unfold iterate
  have : (noisy I lstsq D.outs).ready s.tuners s.expt s.pending = .ok true := rfl
  rw [this, hs]
  rfl

/-! ### A device that meets the hypotheses -/

/-- `sampleSetup` whose parameter drifts by `1/1000` from one evaluation to the next. -/
noncomputable def driftingSample : Noisy 2 1 where
  device := sampleSetup
  measured := fun j _ v => 2 * v 0 - v 1 + 5 + j / 1000
  outs := fun j v =>
    [.ok ([("x", do let a ← v 0; let b ← v 1; pure (2 * a - b + 5 + j / 1000))], [("x", some 1)])]

/-- The hypotheses are met with `κ = δ = 0`, `ω = 1/4000`, `σ = 1/2` and `ρ = 1/100`; the drift exceeds every bound. -/
example : driftingSample.Sound ∧ driftingSample.Drifts 0 0 (1 / 4000) ∧ driftingSample.device = sampleSetup ∧
    driftingSample.missing 0 (fun _ => 8) ≤ 1 ∧ Conditioned sampleSetup (1 / 2) ∧
    InitialEven sampleSetup (fun _ => 8) (1 / 2) sampleTuner ∧
    Real.sqrt (2 : Nat) * (0 + (0 + 1 / 4000 * (2 : Nat)) / (1 / 2)) ≤ (1 / 100 : ℝ) ∧
    (∀ k tol, (sampleSetup.row k).tolerance = some tol →
      (0 + 1 / 4000) / (1 - (1 / 100 + 0) / (1 / 2 - 1 / 100)) < tol) ∧
    ∀ (C : ℝ) (v : Vec 2), ∃ j, C < driftingSample.measured j 0 v := by
  have hlen1 : ∀ f : Fin 1 → ℝ, len f = |f 0| := fun f => by
    simp [len, Real.sqrt_sq_eq_abs]
  refine ⟨fun j => ?_, fun i j v s hij => ?_, rfl, ?_, ?_, ?_, ?_, fun k tol htol => ?_, fun C v => ?_⟩
  · exact
      { gates_nodup := sampleSetup_valid.gates_nodup
        gates_all := sampleSetup_valid.gates_all
        names := sampleSetup_valid.names
        desired := sampleSetup_valid.desired
        scale := sampleSetup_valid.scale
        tolerance := sampleSetup_valid.tolerance
        nonempty := by simp
        evaluators := fun v => by
          refine ⟨fun _ => 1, fun _ => rfl, ?_⟩
          simp [evaluate, collect, driftingSample, Noisy.at, sampleSetup, Setup.target, Target.names,
            Series.select, Series.val, List.lookup] }
  · rw [hlen1]
    have h : (i : ℝ) ≤ j := by exact_mod_cast hij
    have e : driftingSample.measured j 0 (v + s) / driftingSample.device.scale 0 -
        driftingSample.measured i 0 v / driftingSample.device.scale 0 -
        ∑ a, driftingSample.device.grad 0 a / driftingSample.device.scale 0 * s a = 1 / 4000 * ((j : ℝ) - i) := by
      simp only [driftingSample, sampleSetup, Fin.sum_univ_two, Pi.add_apply, Matrix.cons_val_zero, Matrix.cons_val_one]
      ring
    change |driftingSample.measured j 0 (v + s) / driftingSample.device.scale 0 -
        driftingSample.measured i 0 v / driftingSample.device.scale 0 -
        ∑ a, driftingSample.device.grad 0 a / driftingSample.device.scale 0 * s a| ≤ _
    rw [e, abs_of_nonneg (mul_nonneg (by norm_num) (sub_nonneg.2 h))]
    linarith
  · unfold Noisy.missing
    rw [hlen1]
    simp [driftingSample, sampleSetup]
    norm_num [abs_le]
  · intro x
    rw [hlen1]
    have : len (fun i => ∑ k, x k * (sampleSetup.grad k i / sampleSetup.scale k)) = Real.sqrt (5 / 16) * |x 0| := by
      unfold len
      rw [← Real.sqrt_sq_eq_abs, ← Real.sqrt_mul (by norm_num)]
      congr 1
      simp [sampleSetup, Fin.sum_univ_two]
      ring
    rw [this]
    refine mul_le_mul_of_nonneg_right ?_ (abs_nonneg _)
    rw [Real.le_sqrt (by norm_num) (by norm_num)]
    norm_num
  · exact ⟨rfl, ⟨fun _ => none, fun _ => .inl rfl, rfl⟩, rfl, rfl, by simp [sampleTuner, Series.index], rfl, rfl⟩
  · have : Real.sqrt (2 : Nat) ≤ 3 / 2 := by
      rw [Real.sqrt_le_iff]
      norm_num
    norm_num at this ⊢
    linarith
  · have ht : tol = 1 / 10 := by
      simp [sampleSetup] at htol
      rw [← htol]
      norm_num
    rw [ht]
    norm_num
  · obtain ⟨j, hj⟩ := exists_nat_gt ((C - (2 * v 0 - v 1 + 5)) * 1000)
    refine ⟨j, ?_⟩
    simp only [driftingSample]
    linarith

end Qtune.EndToEnd
