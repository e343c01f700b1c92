import Verif.EndToEnd.LocalSliceRun
import Verif.EndToEnd.PropsSlice
import Verif.EndToEnd.PropsLocal
import Verif.EndToEnd.PropsDot
import Verif.EndToEnd.DotCase

/-!
# C179: devices that work only near the start are tuned in small steps, too

The notions are those of `LocalSpec.lean` (`SoundOn`, `NearlyAffineOn`, `Near`, `CompletesInside`) and `PropsSlice.lean` (`InitialSliced`: a maximal step
size `M`, and at most `ν` slices before each evaluation).
-/

namespace Qtune.EndToEnd

open Qtune.Tuner Qtune.Gradient Qtune.Autotuner Qtune.Evaluator Qtune.Evaluator.Fit

variable {n m : Nat}

/-- **C179**.  As C168, for a device whose evaluators only work and whose responses are only nearly affine at most `R` away from the
start `c`: if `R` is at least `η` (the gradients are measured there) plus `(B + (N + 1) * δ) / (σ - 2 * ρ - κ)`, where `B` bounds the distance to the
set points, the tuning is complete after at most `3 * n + 1 + 3 * ν * (N + 1)` calls, none of which raises, and the gates, also between
the evaluations, never have voltages farther away. -/
theorem local_device_is_tuned_in_slices {S : Setup n m} {c : Vec n} {R : ℝ} (hS : S.SoundOn (Near c R)) {κ δ σ ρ η M a f B : ℝ} {ν : Nat}
    (hκ : 0 ≤ κ) (hδ : 0 ≤ δ) (hη : 0 < η) (hM : 2 * η ≤ M) (hν : 1 ≤ ν) (hbend : NearlyAffineOn S (Near c R) κ δ) (hσ : Conditioned S σ)
    (hρ : Real.sqrt n * (κ + δ / η) ≤ ρ) (hρσ : 2 * ρ + κ < σ) {orth : Orth n} (ho : OrthSpec orth)
    {lstsq : Newton.Lstsq (Fin n)} (hls : Newton.LstsqSpec lstsq) (t : OneTuner (FD n) n)
    (ht : InitialSliced S c η M ν t) (ha : a = (ρ + κ) / (σ - ρ)) (hB : missing S c + steepness S * η + κ * η + δ ≤ B)
    (hf : (1 + a) / 2 ≤ f) (hf' : B - ((σ - 2 * ρ - κ) * (ν * M) - δ) ≤ f * B) (hf1 : f ≤ 1) (N : Nat)
    (htol : ∀ k tol, (S.row k).tolerance = some tol → f ^ (N + 1) * B + 2 * δ / (1 - a) < tol)
    (hR : η + (B + (N + 1) * δ) / (σ - 2 * ρ - κ) ≤ R) :
    CompletesInside S (fdI orth) lstsq (Near c R) (3 * n + 1 + 3 * ν * (N + 1)) (fresh t (volts c)) := by
  have hρ0 : 0 ≤ ρ := le_trans (by positivity) hρ
  have hτ : 0 < σ - ρ := by linarith
  have ha1 : a < 1 := by rw [ha, div_lt_one hτ]; linarith
  have hB0 : 0 ≤ B := by
    have h1 : 0 ≤ missing S c := len_nonneg _
    have h2 : 0 ≤ steepness S := Real.sqrt_nonneg _
    refine le_trans ?_ hB
    positivity
  have hw : 0 < σ - 2 * ρ - κ := by linarith
  have hηR : η ≤ R := by
    have : 0 ≤ (B + (N + 1) * δ) / (σ - 2 * ρ - κ) := by positivity
    linarith
  have hag : (1 - a) * (σ - ρ) = σ - 2 * ρ - κ := by
    rw [ha]
    field_simp
    ring
  have hcc : Near c R c := by
    unfold Near
    simp [len]
    linarith
  obtain ⟨y, hy, -⟩ := hS.evaluators c hcc
  have hS' := everywhere_sound hS (hy ⟨0, Nat.pos_of_ne_zero hS.nonempty⟩)
  apply inside_of_everywhere (y := y ⟨0, Nat.pos_of_ne_zero hS.nonempty⟩)
  generalize y ⟨0, Nat.pos_of_ne_zero hS.nonempty⟩ = y₀ at hS'
  have hbend' : NearlyAffineOn (everywhere S (Near c R) y₀) (Near c R) κ δ := hbend
  have hσ' : Conditioned (everywhere S (Near c R) y₀) σ := hσ
  have hn := gates_of_conditioned hS' (by linarith) hσ'
  obtain ⟨start, hstart, hests⟩ := ht.ests
  refine first_inside hS' hn ho c t (B := η) (η := some η) (fun v hv => hv.trans hηR) hstart (fun _ _ => ⟨hη, le_refl _⟩)
    (fun k h hh i => by cases hh; rfl)
    ⟨ht.target, hests, ht.gates, ht.index, rfl, rfl, ht.queued, ht.lastIndex⟩ (by
      intro M' hM'
      rw [ht.maxStep] at hM'
      cases hM'
      exact hM) _ ?_
  intro E q t' d G hAt hq hd hsp hG
  rw [ht.maxStep, ht.maxNumber] at hAt
  have hfrob : frob (G - (everywhere S (Near c R) y₀).slope) ≤ ρ := by
    refine differences_close hη hρ hsp (by positivity) fun j => ?_
    have hdj := (hsp η rfl).1 j
    have h1 := hbend' c (d j) hcc (by
      unfold Near
      rw [add_sub_cancel_left, hdj]
      exact hηR)
    rw [hdj] at h1
    refine le_trans (le_of_eq ?_) h1
    congr 1
    funext k
    rw [(hG k).2 j]
    rfl
  have hmiss : len ((everywhere S (Near c R) y₀).miss q) ≤ B := by
    refine le_trans ?_ hB
    let r : Fin m → ℝ := fun k => S.response k (c + (q - c)) / S.scale k - S.response k c / S.scale k -
      ∑ i, S.grad k i / S.scale k * (q - c) i
    have hm : (everywhere S (Near c R) y₀).miss q = (fun k => S.desired k - S.response k c / S.scale k) +
        (-1 : ℝ) • (act S.slope (q - c) + r) := by
      funext k
      simp only [Setup.miss, act, r, Pi.add_apply, Pi.smul_apply, smul_eq_mul, Setup.slope, add_sub_cancel, everywhere]
      ring
    have h1 : len ((everywhere S (Near c R) y₀).miss q) ≤ missing S c + (len (act S.slope (q - c)) + len r) := by
      rw [hm]
      refine (len_add _ _).trans ?_
      rw [len_smul]
      have := len_add (act S.slope (q - c)) r
      norm_num
      exact add_le_add le_rfl this
    have h2 : len r ≤ κ * len (q - c) + δ := hbend c (q - c) hcc (by
      rw [add_sub_cancel]
      exact hq.trans hηR)
    have h3 : len (act S.slope (q - c)) ≤ steepness S * len (q - c) := act_le S.slope (q - c)
    have h4 : steepness S * len (q - c) ≤ steepness S * η := mul_le_mul_of_nonneg_left hq (Real.sqrt_nonneg _)
    have h5 := mul_le_mul_of_nonneg_left hq hκ
    linarith
  have hΔ0 : 0 ≤ 2 * δ / (1 - a) := div_nonneg (by linarith) (by linarith)
  refine sliced_inside hS' hbend' hκ hδ hσ' hρ0 hρσ hls (by linarith) hν ha rfl hf (B := B) (by rw [hag]; exact hf') hf1 hfrob N E q t' B hAt
    (fun k => (hG k).1) hB0 le_rfl (by linarith) htol ?_
  rw [hag]
  have h6 : (len ((everywhere S (Near c R) y₀).miss q) + (N + 1) * δ) / (σ - 2 * ρ - κ) ≤ (B + (N + 1) * δ) / (σ - 2 * ρ - κ) :=
    (div_le_div_iff_of_pos_right hw).2 (by linarith)
  linarith

/-- **C179** for a double dot, as C165 (with its assumption that the fits return positive widths) with a maximal step size: load time, tunnel coupling and lead transitions of the device are at the set
points after `3 * n + 1 + 3 * ν * (L + 1)` calls at most, and no scan is made more than `R` away from the start. -/
theorem double_dot_is_tuned_in_slices {N : Numerics} (hN : N.Exact) (hp : PositiveWidths N) {D : Dot n m} {grad : Fin (m + 2) → Vec n}
    {c : Vec n} {R κ κ' : ℝ} (hD : D.Valid grad c R κ κ') (hκ : 0 ≤ κ + κ') {σ ρ η M a f b : ℝ} {ν : Nat} (hη : 0 < η) (hM : 2 * η ≤ M) (hν : 1 ≤ ν)
    (hσ : ∀ x : Fin (m + 2) → ℝ, σ * len x ≤ len fun i => ∑ k, x k * (grad k i / D.scale k))
    (hρ : Real.sqrt n * (κ + κ' + D.bench.error / η) ≤ ρ) (hρσ : 2 * ρ + (κ + κ') < σ) {orth : Orth n} (ho : OrthSpec orth)
    {lstsq : Newton.Lstsq (Fin n)} (hls : Newton.LstsqSpec lstsq) (t : OneTuner (FD n) n)
    (ht : InitialSliced (D.setup N grad) c η M ν t) (ha : a = (ρ + (κ + κ')) / (σ - ρ))
    (hb : missing (D.setup N grad) c + steepness (D.setup N grad) * η + (κ + κ') * η + D.bench.error ≤ b)
    (hf : (1 + a) / 2 ≤ f) (hf' : b - ((σ - 2 * ρ - (κ + κ')) * (ν * M) - D.bench.error) ≤ f * b) (hf1 : f ≤ 1) (L : Nat)
    (htol : ∀ k tol, (D.row k).tolerance = some tol → f ^ (L + 1) * b + 2 * D.bench.error / (1 - a) < tol)
    (hR : η + (b + (L + 1) * D.bench.error) / (σ - 2 * ρ - (κ + κ')) ≤ R) :
    ∃ K ≤ 3 * n + 1 + 3 * ν * (L + 1),
      (∃ s', iterates (hierarchy (fdI orth) lstsq (D.outs N)) K (fresh t (volts c)) = .ok s' ∧
        isComplete (hierarchy (fdI orth) lstsq (D.outs N)) s' = true ∧ ∃ q : Vec n, s'.expt = volts q ∧
          ∀ k tol, (D.row k).tolerance = some tol → |D.desired k - D.truth k q / D.scale k| < tol + D.slack k) ∧
      ∀ j ≤ K, ∃ s', iterates (hierarchy (fdI orth) lstsq (D.outs N)) j (fresh t (volts c)) = .ok s' ∧
        ∃ v, s'.expt = volts v ∧ len (v - c) ≤ R := by
  have hsp : 0 < spacing D.bench.scan := spacing_pos hD.bench.range (by have := hD.bench.window; omega)
  have hδ : 0 ≤ D.bench.error := by
    unfold Bench.error
    have := len_nonneg fun k => 1 / D.bench.scale k
    positivity
  have hρ0 : 0 ≤ ρ := le_trans (by positivity) hρ
  have hτ : 0 < σ - ρ := by linarith
  obtain ⟨L', hL', ⟨s', hs', hc, q, hq, hmet⟩, hin⟩ := local_device_is_tuned_in_slices (dot_soundOn hN hp hD) (κ := κ + κ') hκ hδ hη hM hν
    (dot_bend hD) (σ := σ) hσ (ρ := ρ) hρ hρσ ho hls t ht ha hb hf hf' hf1 L htol hR
  refine ⟨L', hL', ⟨s', hs', hc, q, hq, ?_⟩, hin⟩
  obtain ⟨s'', h2, v, hv, hnear⟩ := hin L' le_rfl
  rw [hs'] at h2
  cases h2
  rw [hq] at hv
  have hvq : q = v := by
    funext i
    have := congrFun hv i
    simpa [volts] using this
  subst hvq
  have h1 : ∀ k tol, (D.row k).tolerance = some tol → |D.desired k - D.reported k q / D.scale k| < tol := hmet
  refine all_parameters ?_ ?_ ?_
  · intro tol hk
    have := h1 0 tol hk
    change _ < tol + 0
    rw [add_zero]
    exact this
  · intro tol hk
    have := h1 1 tol hk
    change _ < tol + 0
    rw [add_zero]
    exact this
  · intro k tol hk
    have h4 : |D.desired k.succ.succ - D.bench.reported k q / D.bench.scale k| < tol := h1 k.succ.succ tol hk
    have h3 := bench_near hD.bench hnear k
    change |D.desired k.succ.succ - D.bench.position k q / D.bench.scale k| < tol + spacing D.bench.scan * |1 / D.bench.scale k|
    have e : D.desired k.succ.succ - D.bench.position k q / D.bench.scale k =
        (D.desired k.succ.succ - D.bench.reported k q / D.bench.scale k) +
          (D.bench.reported k q / D.bench.scale k - D.bench.position k q / D.bench.scale k) := by ring
    rw [e]
    exact lt_of_le_of_lt (abs_add_le _ _) (by linarith)

/-! ### A double dot and a tuner that meet the hypotheses -/

/-- The tuner of the sample double dot with at most two slices of 4 mV before each evaluation. -/
noncomputable def simDotSliced : OneTuner (FD 3) 3 := { simDotTuner with maxStep := some (1 / 250), maxNumber := 2 }

/-- The hypotheses are met by the double dot of C165 (`upright_exact`, `upright_positive`, `simDot_valid`) with `f = 17/25`: it has load time 16 and the set point 15.995,
the width 192 µV and the set point 192.005 µV, and the transition at 0 and the set point 5 µV. -/
example : Numerics.Exact upright ∧ PositiveWidths upright ∧ simDot.Valid simGrad (fun _ => 0) (3 / 100) (63 / 1000) (31 / 1000) ∧
    (∀ x : Fin 3 → ℝ, 1 * len x ≤ len fun i => ∑ k, x k * (simGrad k i / simDot.scale k)) ∧
    Real.sqrt (3 : Nat) * (63 / 1000 + 31 / 1000 + simDot.bench.error / (1 / 500)) ≤ 17 / 100 ∧
    2 * (17 / 100) + (63 / 1000 + 31 / 1000) < (1 : ℝ) ∧
    InitialSliced (simDot.setup upright simGrad) (fun _ => 0) (1 / 500) (1 / 250) 2 simDotSliced ∧
    missing (simDot.setup upright simGrad) (fun _ => 0) + steepness (simDot.setup upright simGrad) * (1 / 500) +
      (63 / 1000 + 31 / 1000) * (1 / 500) + simDot.bench.error ≤ 14 / 1000 ∧
    (1 + (17 / 100 + (63 / 1000 + 31 / 1000)) / (1 - 17 / 100)) / 2 ≤ (17 / 25 : ℝ) ∧
    14 / 1000 - ((1 - 2 * (17 / 100) - (63 / 1000 + 31 / 1000)) * ((2 : Nat) * (1 / 250)) - simDot.bench.error) ≤ 17 / 25 * (14 / 1000 : ℝ) ∧
    (∀ k tol, (simDot.row k).tolerance = some tol → (17 / 25) ^ (12 + 1) * (14 / 1000) +
      2 * simDot.bench.error / (1 - (17 / 100 + (63 / 1000 + 31 / 1000)) / (1 - 17 / 100)) < tol) ∧
    1 / 500 + (14 / 1000 + ((12 : Nat) + 1) * simDot.bench.error) / (1 - 2 * (17 / 100) - (63 / 1000 + 31 / 1000)) ≤ (3 / 100 : ℝ) := by
  have herr : simDot.bench.error = 5e-6 := simTransition_error
  rw [herr]
  refine ⟨upright_exact, upright_positive, simDot_valid, ?_, ?_, by norm_num, ?_, ?_, by norm_num, by norm_num, ?_, by norm_num⟩
  · intro x
    rw [one_mul]
    unfold len
    apply Real.sqrt_le_sqrt
    simp only [Fin.sum_univ_three, sim_scale.1, sim_scale.2.1, sim_scale.2.2, simGrad]
    simp
    norm_num
    nlinarith [sq_nonneg (x 0), sq_nonneg (x 2)]
  · have : Real.sqrt (3 : Nat) ≤ 1733 / 1000 := by
      rw [Real.sqrt_le_iff]
      norm_num
    norm_num at this ⊢
    linarith
  · exact ⟨rfl, ⟨fun _ => none, fun _ => .inl rfl, rfl⟩, rfl, rfl, by simp [simDotSliced, simDotTuner, Series.index], rfl, rfl, rfl⟩
  · have h1 := sim_missing
    have h2 : steepness (simDot.setup upright simGrad) ≤ 2237 / 1000 := by
      have e : steepness (simDot.setup upright simGrad) = Real.sqrt (∑ k, ∑ i, (simGrad k i / simDot.scale k) ^ 2) := rfl
      rw [e, Real.sqrt_le_iff]
      refine ⟨by norm_num, ?_⟩
      simp only [Fin.sum_univ_three, sim_scale.1, sim_scale.2.1, sim_scale.2.2, simGrad]
      simp
      norm_num
    norm_num at h1 h2 ⊢
    linarith
  · refine all_parameters ?_ ?_ ?_
    · intro tol h; cases h; norm_num
    · intro tol h; cases h; norm_num
    · intro k tol h; cases h; norm_num

end Qtune.EndToEnd
