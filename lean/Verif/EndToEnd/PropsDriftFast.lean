import Verif.EndToEnd.DriftRun

/-! # C200: devices that drift faster than the tolerances are never tuned -/

namespace Qtune.EndToEnd

open Qtune.Tuner Qtune.Gradient Qtune.Autotuner

variable {n m : Nat}

/-- A device that begins to drift after the first `n + 1` evaluations, by `u` per evaluation in units of the target. -/
def Noisy.DriftsAway (D : Noisy n m) (u : Fin m → ℝ) : Prop :=
  ∀ j k v, D.measured j k v = D.device.response k v + D.device.scale k * (u k * ((j - n : ℕ) : ℝ))

theorem drifts_away_bounded {D : Noisy n m} (hD : D.Sound) (haff : D.device.Affine) {u : Fin m → ℝ}
    (hu : D.DriftsAway u) : D.Drifts 0 0 (len u) := by
  intro i j v s hij
  have hsub : (((j - n : ℕ) : ℝ) - ((i - n : ℕ) : ℝ)) ≤ (j : ℝ) - i ∧ 0 ≤ (((j - n : ℕ) : ℝ) - ((i - n : ℕ) : ℝ)) := by
    have h1 : (j - n) + i ≤ j + (i - n) := by omega
    have h2 : i - n ≤ j - n := by omega
    have h1' : ((j - n : ℕ) : ℝ) + i ≤ j + ((i - n : ℕ) : ℝ) := by exact_mod_cast h1
    have h2' : ((i - n : ℕ) : ℝ) ≤ ((j - n : ℕ) : ℝ) := by exact_mod_cast h2
    constructor <;> linarith
  have e : (fun k => D.measured j k (v + s) / D.device.scale k - D.measured i k v / D.device.scale k -
      ∑ a, D.device.grad k a / D.device.scale k * s a) = (((j - n : ℕ) : ℝ) - ((i - n : ℕ) : ℝ)) • u := by
    funext k
    have h0 : D.device.scale k ≠ 0 := ((hD 0).scale k).2
    have h1 := (Setup.scaled_affine haff k).sub (v + s) v
    rw [add_sub_cancel_left] at h1
    unfold Setup.scaled at h1
    rw [hu, hu, ← h1]
    simp only [Pi.smul_apply, smul_eq_mul]
    field_simp
    ring
  rw [e]
  have : len ((((j - n : ℕ) : ℝ) - ((i - n : ℕ) : ℝ)) • u) = (((j - n : ℕ) : ℝ) - ((i - n : ℕ) : ℝ)) * len u := by
    rw [len_smul, abs_of_nonneg hsub.2]
  rw [this]
  have := mul_le_mul_of_nonneg_right hsub.1 (len_nonneg u)
  linarith

/-- **C200**, the tolerances must be larger than the drift of one evaluation.  Every affine device with independent
gradients that begins to drift when its gradients have been measured, by `u` from one evaluation to the next, is never
tuned if `u` exceeds one of the tolerances, even if its gradients are known exactly: the tuning goes on forever, unless
it is complete before the device begins to drift. -/
theorem fast_drift_never_tuned {D : Noisy n m} (hD : D.Sound) (haff : D.device.Affine) {σ η : ℝ} (hσ0 : 0 < σ) (hη : 0 < η)
    (hσ : Conditioned D.device σ) {u : Fin m → ℝ} (hu : D.DriftsAway u) {k₀ : Fin m} {tol : ℝ}
    (htol : (D.device.row k₀).tolerance = some tol) (huk : tol ≤ |u k₀|) {orth : Orth n} (ho : OrthSpec orth)
    {lstsq : Newton.Lstsq (Fin n)} (hls : Newton.LstsqSpec lstsq) (c : Vec n) (t : OneTuner (FD n) n)
    (ht : InitialEven D.device c η t) (hfar : ∀ q, len (q - c) ≤ η → ¬ SetPointsMet D.device q) (N : Nat) :
    ∃ s', iterates (noisy (fdI orth) lstsq D.outs) N (fresh t (volts c, 0)) = .ok s' ∧
      isComplete (noisy (fdI orth) lstsq D.outs) s' = false := by
  have hn : n ≠ 0 := gates_of_conditioned (hD 0) hσ0 hσ
  -- the responses in the first evaluations
  have hearly : ∀ i ≤ n, ∀ k v, D.measured i k v = D.device.response k v := by
    intro i hi k v
    rw [hu, Nat.sub_eq_zero_of_le hi]
    simp
  -- a step with the exact gradients misses the set points by the drift
  have hphase : ∀ (K : Nat) (G : Fin m → Vec n), frob (G - D.device.slope) ≤ 0 →
      ∀ (E : Fin m → FD n) (q : Vec n) (t' : OneTuner (FD n) n) (j : Nat), n ≤ j →
      At (D.at j) (none, t.maxNumber) E q t' → (∀ k, Done (G k) (E k)) →
      RunsOn D (fdI orth) lstsq (3 * K) ⟨t', (volts q, j + 1), 0, true, none⟩ := by
    intro K G hfrob
    induction K with
    | zero => exact fun _ _ _ _ _ _ _ => ⟨_, rfl⟩
    | succ K ih =>
      intro E q t' j hj h hdone
      obtain ⟨x, hsug, hx, -⟩ := known_suggestion (hD j) hls h (G := G) (I := fdI orth)
        (fun k tj => (hdone k).silent tj) (fun k => by
          obtain ⟨C, hC⟩ := (hdone k).est
          simp [fdI, hC]) (τ := σ - 0) (by linarith) (perturbed hσ hfrob)
      obtain ⟨t₁, hnext, hbase⟩ := suggestion (E' := E) (q' := q + x) h (by simp) hsug
      have hGx : act G x = act D.device.slope x := by
        have h1 := act_le (G - D.device.slope) x
        have h2 : len (act (G - D.device.slope) x) = 0 := by
          have h3 : frob (G - D.device.slope) * len x ≤ 0 := mul_nonpos_of_nonpos_of_nonneg hfrob (len_nonneg x)
          exact le_antisymm (h1.trans h3) (len_nonneg _)
        have h4 : act (G - D.device.slope) x = 0 := len_eq_zero h2
        have h5 : act (G - D.device.slope) x = act G x - act D.device.slope x := by
          funext k
          simp only [act, Pi.sub_apply, ← Finset.sum_sub_distrib]
          exact Finset.sum_congr rfl fun i _ => by ring
        rw [h5] at h4
        exact sub_eq_zero.1 h4
      have hnot : ¬ SetPointsMet (D.at (j + 1)) (q + x) := by
        intro hmet
        have h1 := hmet k₀ tol htol
        have h0 : D.device.scale k₀ ≠ 0 := ((hD 0).scale k₀).2
        have h2 := congrFun hx k₀
        rw [hGx] at h2
        have h3 := (Setup.scaled_affine haff k₀).sub (q + x) q
        rw [add_sub_cancel_left] at h3
        have h5 : act D.device.slope x k₀ = D.device.scaled k₀ (q + x) - D.device.scaled k₀ q := h3.symm
        rw [h5] at h2
        have h6 : ((j + 1 - n : ℕ) : ℝ) = ((j - n : ℕ) : ℝ) + 1 := by
          rw [show j + 1 - n = (j - n) + 1 by omega]
          push_cast
          ring
        have h7 : (D.at (j + 1)).desired k₀ - (D.at (j + 1)).response k₀ (q + x) / (D.at (j + 1)).scale k₀ = - u k₀ := by
          have e1 : (D.at (j + 1)).response k₀ (q + x) / (D.at (j + 1)).scale k₀ =
              D.device.scaled k₀ (q + x) + u k₀ * ((j + 1 - n : ℕ) : ℝ) := by
            change D.measured (j + 1) k₀ (q + x) / D.device.scale k₀ = _
            rw [hu]
            unfold Setup.scaled
            field_simp
          have e2 : (D.at j).miss q k₀ = D.device.desired k₀ - (D.device.scaled k₀ q + u k₀ * ((j - n : ℕ) : ℝ)) := by
            change D.device.desired k₀ - D.measured j k₀ q / D.device.scale k₀ = _
            rw [hu]
            unfold Setup.scaled
            field_simp
          rw [e2] at h2
          rw [e1, h6]
          change D.device.desired k₀ - _ = _
          linarith
        rw [h7, abs_neg] at h1
        linarith
      have := runs_cycle hD (q := q) hnext (Noisy.base (j' := j + 1) hbase)
        (fun k y _ => ⟨E k, (hdone k).keeps _ _ _⟩) hnot (3 * K) (by
        intro y t'' hAt
        refine ih _ _ t'' (j + 1) (by omega) hAt (fun k => ?_)
        have : (fdI orth).update (volts (q + x)) (some ((D.at (j + 1)).scaled k (q + x))) (some (y k)) (E k) =
            (E k, .ok ()) := (hdone k).keeps _ _ _
        rw [this]
        exact hdone k)
      rw [show 3 * (K + 1) = 3 + 3 * K by ring]
      exact this
  have hruns : ∀ K, RunsOn D (fdI orth) lstsq (3 * n + 1 + 3 * K) (fresh t (volts c, 0)) := by
    intro K
    refine runs_first hD hn ho c t hη 0 ht ?_ (3 * K) ?_
    · intro i hi q hq hmet
      refine hfar q hq fun k tol' hk => ?_
      have := hmet k tol' hk
      change |D.device.desired k - D.measured i k q / D.device.scale k| < tol' at this
      rwa [hearly i (by omega)] at this
    · intro E q t' d G hAt hq hd hsp hG
      rw [zero_add] at hAt
      obtain ⟨f, ⟨hi, hf⟩, hG⟩ := hG
      have hfrob : frob (G - D.device.slope) ≤ 0 := by
        refine differences_close (κ := 0) (δ := 0) hη (by simp) hsp (by simp) fun a => ?_
        obtain ⟨i, -, h1, hfa⟩ := hf a
        have : (fun k => ∑ b, G k b * d a b - ∑ b, D.device.slope k b * d a b) = 0 := by
          funext k
          rw [(hG k).2 a, hi, hfa]
          have h3 := (Setup.scaled_affine haff k).sub (c + d a) c
          rw [add_sub_cancel_left] at h3
          have e1 : (D.at i).scaled k (c + d a) = D.device.scaled k (c + d a) := by
            change D.measured i k (c + d a) / D.device.scale k = _
            rw [hearly i (by omega)]
            rfl
          have e2 : (D.at 0).scaled k c = D.device.scaled k c := by
            change D.measured 0 k c / D.device.scale k = _
            rw [hearly 0 (by omega)]
            rfl
          rw [e1, e2, h3]
          exact sub_self _
        rw [this]
        simp [len]
      rw [zero_add]
      exact hphase K G hfrob E q t' n le_rfl hAt fun k => (hG k).1
  obtain ⟨s', hs'⟩ := hruns (N + 1)
  rw [show 3 * n + 1 + 3 * (N + 1) = N + (1 + (3 * n + 3 + 2 * N)) by ring] at hs'
  cases hN : iterates (noisy (fdI orth) lstsq D.outs) N (fresh t (volts c, 0)) with
  | error e =>
    have : ∀ (H : Autotuner.Hierarchy (OneTuner (FD n) n) (Volt (Fin n) × Nat) (Volt (Fin n)) (List String) Unit)
        (M K : Nat) s e, iterates H M s = .error e → iterates H (M + K) s = .error e := by
      intro H M
      induction M with
      | zero => intro K s e h; cases h
      | succ M ih =>
        intro K s e h
        rw [Nat.add_right_comm, iterates]
        rw [iterates] at h
        rcases hi : iterate H (.ok ()) s with ⟨s₁, ev, _ | _⟩
        · rw [hi] at h; exact h
        · rw [hi] at h; exact ih K s₁ e h
    rw [this _ N _ _ _ hN] at hs'
    cases hs'
  | ok s₁ =>
    refine ⟨s₁, rfl, ?_⟩
    rw [iterates_add _ N _ _ _ hN] at hs'
    cases hc : isComplete (noisy (fdI orth) lstsq D.outs) s₁ with
    | false => rfl
    | true =>
      rw [Nat.add_comm 1, iterates, drift_after_completion_unnoticed D _ _ _ hc] at hs'
      cases hs'

/-! ### A device that meets the hypotheses -/

/-- `sampleSetup`, which drifts by one unit of its target from the fourth evaluation on. -/
noncomputable def fastSample : Noisy 2 1 where
  device := sampleSetup
  measured := fun j _ v => 2 * v 0 - v 1 + 5 + 4 * (1 * ((j - 2 : ℕ) : ℝ))
  outs := fun j v =>
    [.ok ([("x", do let a ← v 0; let b ← v 1; pure (2 * a - b + 5 + 4 * (1 * ((j - 2 : ℕ) : ℝ))))], [("x", some 1)])]

example : fastSample.Sound ∧ fastSample.device.Affine ∧ fastSample.DriftsAway (fun _ => 1) ∧
    (fastSample.device.row 0).tolerance = some (1 / 10) ∧ InitialEven fastSample.device ![8, -8] (1 / 2) sampleTuner ∧
    ∀ q, len (q - ![8, -8]) ≤ 1 / 2 → ¬ SetPointsMet fastSample.device q := by
  refine ⟨fun j => ?_, sampleSetup_valid.affine, fun j k v => ?_, rfl, ?_, fun q hq hmet => ?_⟩
  · exact
      { gates_nodup := sampleSetup_valid.gates_nodup
        gates_all := sampleSetup_valid.gates_all
        names := sampleSetup_valid.names
        desired := sampleSetup_valid.desired
        scale := sampleSetup_valid.scale
        tolerance := sampleSetup_valid.tolerance
        nonempty := by simp
        evaluators := fun v => by
          refine ⟨fun _ => 1, fun _ => rfl, ?_⟩
          simp [evaluate, collect, fastSample, Noisy.at, sampleSetup, Setup.target, Target.names,
            Series.select, Series.val, List.lookup] }
  · simp [fastSample, sampleSetup]
  · exact ⟨rfl, ⟨fun _ => none, fun _ => .inl rfl, rfl⟩, rfl, rfl, by simp [sampleTuner, Series.index], rfl, rfl⟩
  · have h1 := hmet 0 (1 / 10) rfl
    have h2 := pow_le_pow_left₀ (len_nonneg _) hq 2
    rw [len_sq] at h2
    simp [Fin.sum_univ_two] at h2
    simp [fastSample, sampleSetup] at h1
    rw [abs_lt] at h1
    norm_num at h1 h2
    have h3 : 7 ≤ q 0 := by nlinarith [sq_nonneg (q 1 + 8)]
    have h4 : q 1 ≤ -7 := by nlinarith [sq_nonneg (q 0 - 8)]
    linarith [h1.1]

end Qtune.EndToEnd
