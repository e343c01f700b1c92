import Verif.EndToEnd.PropsDrift
import Verif.EndToEnd.PropsSource

/-!
# C200: devices that drift, are noisy and nearly affine, behind a voltage source of finite resolution

The voltages that are read back are the ones that the source has been told.
-/

namespace Qtune.EndToEnd

open Qtune.Tuner Qtune.Gradient Qtune.Autotuner

variable {n m : Nat}

/-- The tuning is complete within `N` calls, and in the last evaluation the voltages `p` that the source applied for the
present voltages `q` met all set points. -/
def Noisy.CompletesCoarse {X : Type} (D : Noisy n m) (I : Newton.EstI X (Fin n)) (lstsq : Newton.Lstsq (Fin n))
    (src : Volt (Fin n) → Volt (Fin n)) (N : Nat)
    (s : Autotuner.State (OneTuner X n) (Volt (Fin n) × Nat) (Volt (Fin n))) : Prop :=
  ∃ M ≤ N, ∃ s', iterates (noisy I lstsq fun j x => D.outs j (src x)) M s = .ok s' ∧
    isComplete (noisy I lstsq fun j x => D.outs j (src x)) s' = true ∧
    ∃ (q p : Vec n) (j : Nat), s'.expt = (volts q, j + 1) ∧ src (volts q) = volts p ∧
      ∀ k tol, (D.device.row k).tolerance = some tol →
        |D.device.desired k - D.measured j k p / D.device.scale k| < tol

/-- **C200**: a device that drifts by `ω` from one evaluation to the next and is affine up to `κ` and `δ`, behind a
source whose voltages are wrong by up to `r`, is tuned like a device that is affine up to `κ` and
`δ + 2 * (κ + steepness) * r`: the number of calls depends only on what is missing at the start, and all tolerances must
be larger than this plus `ω`, divided by `1 - (ρ + κ) / (σ - ρ)`. -/
theorem coarse_drifting_device_is_tuned {S : Setup n m} {src : Volt (Fin n) → Volt (Fin n)} {r : ℝ}
    (hsrc : Resolution src r) {κ δ δ' ω σ ρ η : ℝ} (hκ : 0 ≤ κ) (hδ : 0 ≤ δ) (hω : 0 ≤ ω) (hη : 0 < η)
    (hσ : Conditioned S σ) (hδ' : δ' = δ + 2 * (κ + steepness S) * r)
    (hρ : Real.sqrt n * (κ + (δ' + ω * n) / η) ≤ ρ) (hρσ : 2 * ρ + κ < σ)
    {orth : Orth n} (ho : OrthSpec orth) {lstsq : Newton.Lstsq (Fin n)} (hls : Newton.LstsqSpec lstsq) (c : Vec n)
    (t : OneTuner (FD n) n) (ht : InitialEven S c η t) (b : ℝ)
    (htol : ∀ k tol, (S.row k).tolerance = some tol → (δ' + ω) / (1 - (ρ + κ) / (σ - ρ)) < tol) :
    ∃ N, ∀ (D : Noisy n m) (j : Nat), D.device = S → D.Sound → D.Drifts κ δ ω →
      (∀ p, src (volts c) = volts p → D.missing j p ≤ b) →
      D.CompletesCoarse (fdI orth) lstsq src N (fresh t (volts c, j)) := by
  choose app happ hlen using hsrc
  have hr : 0 ≤ r := (len_nonneg _).trans (hlen 0)
  have hst : 0 ≤ steepness S := Real.sqrt_nonneg _
  have hδ0 : 0 ≤ δ' := by rw [hδ']; positivity
  obtain ⟨N, hN⟩ := drifting_device_is_tuned_eventually (S := S) hκ hδ0 hω hη hσ hρ hρσ ho hls c t ht b htol
  refine ⟨N, fun D j hdev hsound hdrift hb => ?_⟩
  let D' : Noisy n m :=
    { device := D.device
      measured := fun j k v => D.measured j k (app v)
      outs := fun j x => D.outs j (src x) }
  have hS' : D'.Sound := fun i =>
    ⟨(hsound i).gates_nodup, (hsound i).gates_all, (hsound i).names, (hsound i).desired, (hsound i).scale,
      (hsound i).tolerance, (hsound i).nonempty, fun v => by
      obtain ⟨y, hy, hev⟩ := (hsound i).evaluators (app v)
      refine ⟨y, hy, ?_⟩
      have : (D'.at i).outs (fun a => some (v a)) = (D.at i).outs (volts (app v)) := by
        change D.outs i (src (volts v)) = _
        rw [happ]
        rfl
      rw [this]
      exact hev⟩
  have hdr : D'.Drifts κ δ' ω := by
    intro i l v s hil
    have h1 := hdrift i l (app v) (app (v + s) - app v) hil
    have e1 : app v + (app (v + s) - app v) = app (v + s) := by abel
    rw [e1] at h1
    have h3 := act_le S.slope ((app (v + s) - (v + s)) + (v - app v))
    have h4 := len_add (app (v + s) - (v + s)) (v - app v)
    have h5 := hlen (v + s)
    have h6 := hlen v
    rw [len_sub_comm] at h6
    have h7 : frob S.slope = steepness S := rfl
    rw [h7] at h3
    have h8 : len (app (v + s) - (v + s) + (v - app v)) ≤ 2 * r := by linarith
    have h9 := mul_le_mul_of_nonneg_left h8 hst
    have h10 : len (app (v + s) - app v) ≤ len s + 2 * r := by
      have e : app (v + s) - app v = s + ((app (v + s) - (v + s)) + (v - app v)) := by abel
      rw [e]
      have := len_add s ((app (v + s) - (v + s)) + (v - app v))
      linarith
    have h11 := mul_le_mul_of_nonneg_left h10 hκ
    have e2 : (fun k => D'.measured l k (v + s) / D'.device.scale k - D'.measured i k v / D'.device.scale k -
        ∑ a, D'.device.grad k a / D'.device.scale k * s a) =
        (fun k => D.measured l k (app (v + s)) / D.device.scale k - D.measured i k (app v) / D.device.scale k -
          ∑ a, D.device.grad k a / D.device.scale k * (app (v + s) - app v) a) +
        act S.slope ((app (v + s) - (v + s)) + (v - app v)) := by
      funext k
      have e3 : ∑ a, D.device.grad k a / D.device.scale k * (app (v + s) - app v) a =
          ∑ a, D.device.grad k a / D.device.scale k * s a +
            act S.slope ((app (v + s) - (v + s)) + (v - app v)) k := by
        unfold act Setup.slope
        rw [← hdev, ← Finset.sum_add_distrib]
        refine Finset.sum_congr rfl fun a _ => ?_
        simp only [Pi.add_apply, Pi.sub_apply]
        ring
      change D.measured l k (app (v + s)) / D.device.scale k - D.measured i k (app v) / D.device.scale k -
        ∑ a, D.device.grad k a / D.device.scale k * s a = _ - _ - _ + _
      rw [e3]
      ring
    rw [e2]
    have h12 := len_add (fun k => D.measured l k (app (v + s)) / D.device.scale k -
      D.measured i k (app v) / D.device.scale k - ∑ a, D.device.grad k a / D.device.scale k * (app (v + s) - app v) a)
      (act S.slope ((app (v + s) - (v + s)) + (v - app v)))
    rw [hδ']
    linarith
  obtain ⟨M, hM, s', hs', hcomp, q, i, hq, hmet⟩ := hN D' j hdev hS' hdr (hb (app c) (happ c))
  exact ⟨M, hM, s', hs', hcomp, q, app q, i, hq, happ q, hmet⟩

/-- The hypotheses are met by the drifting device of `PropsDrift.lean` behind a source that rounds to multiples of
`1/1000`. -/
example : ∃ δ' : ℝ, Resolution (rounding (1 / 1000)) (1 / 1000) ∧
    δ' = 0 + 2 * (0 + steepness sampleSetup) * (1 / 1000) ∧
    Real.sqrt (2 : Nat) * (0 + (δ' + 1 / 4000 * (2 : Nat)) / (1 / 2)) ≤ (1 / 100 : ℝ) ∧
    (∀ k tol, (sampleSetup.row k).tolerance = some tol →
      (δ' + 1 / 4000) / (1 - (1 / 100 + 0) / (1 / 2 - 1 / 100)) < tol) ∧
    ∀ p, rounding (1 / 1000) (volts fun _ => 8) = volts p → driftingSample.missing 0 p ≤ 1 := by
  have hs := sample_steepness
  have hs0 : 0 ≤ steepness sampleSetup := Real.sqrt_nonneg _
  refine ⟨_, rounding_resolution (by norm_num), rfl, ?_, fun k tol htol => ?_, fun p hp => ?_⟩
  · have h2 : Real.sqrt (2 : Nat) ≤ 3 / 2 := by
      rw [Real.sqrt_le_iff]
      norm_num
    have h3 : 0 ≤ Real.sqrt (2 : Nat) := Real.sqrt_nonneg _
    push_cast at h2 h3 ⊢
    nlinarith
  · have ht : tol = 1 / 10 := by
      simp [sampleSetup] at htol
      rw [← htol]
      norm_num
    rw [ht, div_lt_iff₀ (by norm_num)]
    norm_num
    linarith
  · rw [rounding_volts] at hp
    have hp' : p = fun _ => 8 := by
      funext i
      have := Option.some.inj (congrFun hp i)
      rw [← this]
      have e : (8 : ℝ) / (1 / 1000) = ((8000 : ℤ) : ℝ) := by norm_num
      rw [e, round_intCast]
      norm_num
    subst hp'
    have hlen1 : ∀ f : Fin 1 → ℝ, len f = |f 0| := fun f => by
      simp [len, Real.sqrt_sq_eq_abs]
    unfold Noisy.missing
    rw [hlen1]
    simp [driftingSample, sampleSetup]
    norm_num [abs_le]

end Qtune.EndToEnd
