import Verif.EndToEnd.LeadRun

/-! # C159: tuning positions of lead transitions, from the data of the scans -/

namespace Qtune.EndToEnd

open Qtune.Tuner Qtune.Gradient Qtune.Autotuner Qtune.Evaluator

variable {n m : Nat}

/-- **C159**.  A tuner whose parameters are positions of lead transitions, evaluated by `LeadTransition` from line scans, with fresh finite difference
estimators with steps of the length `η`.  If the positions are affine functions of the voltages near the start, with gradients that are conditioned
by `σ`, and the scans have so many points that the error of the positions is small compared with steps and tolerances, the tuning is complete after at most
`3 * n + 1 + 3 * (N + 1)` calls, none of which raises; the gates never have voltages more than `R` away from the start; and finally the
transitions, not only the reported positions, are at the set points within the tolerances plus the distance of two points. -/
theorem lead_transitions_are_tuned {B : Bench n m} {grad : Fin m → Vec n} {c : Vec n} {R : ℝ} (hB : B.Valid grad c R)
    {σ ρ η : ℝ} (hη : 0 < η) (hσ : ∀ x : Fin m → ℝ, σ * len x ≤ len fun i => ∑ k, x k * (grad k i / B.scale k))
    (hρ : Real.sqrt n * (B.error / η) ≤ ρ) (hρσ : 2 * ρ < σ) {orth : Orth n} (ho : OrthSpec orth)
    {lstsq : Newton.Lstsq (Fin n)} (hls : Newton.LstsqSpec lstsq) (t : OneTuner (FD n) n)
    (ht : InitialEven (B.setup grad) c η t) (N : Nat) {b : ℝ}
    (hb : missing (B.setup grad) c + steepness (B.setup grad) * η + B.error ≤ b)
    (htol : ∀ k tol, (B.row k).tolerance = some tol → (ρ / (σ - ρ)) ^ (N + 1) * b + B.error / (1 - ρ / (σ - ρ)) < tol)
    (hR : η + (b + (N + 1) * B.error) / (1 - ρ / (σ - ρ)) / (σ - ρ) ≤ R) :
    ∃ M ≤ 3 * n + 1 + 3 * (N + 1),
      (∃ s', iterates (hierarchy (fdI orth) lstsq B.outs) M (fresh t (volts c)) = .ok s' ∧
        isComplete (hierarchy (fdI orth) lstsq B.outs) s' = true ∧ ∃ q : Vec n, s'.expt = volts q ∧
          ∀ k tol, (B.row k).tolerance = some tol →
            |B.desired k - B.position k q / B.scale k| < tol + spacing B.scan * |1 / B.scale k|) ∧
      ∀ j ≤ M, ∃ s', iterates (hierarchy (fdI orth) lstsq B.outs) j (fresh t (volts c)) = .ok s' ∧
        ∃ v, s'.expt = volts v ∧ len (v - c) ≤ R := by
  have hsp : 0 < spacing B.scan := spacing_pos hB.range (by have := hB.window; omega)
  have hδ : 0 ≤ B.error := by
    unfold Bench.error
    have := len_nonneg fun k => 1 / B.scale k
    positivity
  have hρ0 : 0 ≤ ρ := le_trans (by positivity) hρ
  have hτ : 0 < σ - ρ := by linarith
  have ha0 : 0 ≤ ρ / (σ - ρ) := by positivity
  have ha1 : 0 < 1 - ρ / (σ - ρ) := by
    rw [sub_pos, div_lt_one hτ]; linarith
  obtain ⟨M, hM, ⟨s', hs', hc, q, hq, hmet⟩, hin⟩ := local_device_is_tuned (bench_soundOn hB (Near c R)) (κ := 0) le_rfl hδ hη (bench_bend hB)
    (σ := σ) hσ (ρ := ρ) (by simpa using hρ) (by linarith) ho hls t ht N (by
      intro k tol hk
      have h1 := htol k tol hk
      have h2 := mul_le_mul_of_nonneg_left hb (pow_nonneg ha0 (N + 1))
      simp only [add_zero, zero_mul]
      linarith) (by
      simp only [add_zero, zero_mul]
      refine le_trans ?_ hR
      gcongr)
  refine ⟨M, hM, ⟨s', hs', hc, q, hq, ?_⟩, hin⟩
  intro k tol hk
  have h1 := hmet k tol hk
  obtain ⟨s'', h2, v, hv, hnear⟩ := hin M le_rfl
  rw [hs'] at h2
  cases h2
  rw [hq] at hv
  have hvq : q = v := by
    funext i
    have := congrFun hv i
    simpa [volts] using this
  subst hvq
  have h3 := bench_near hB hnear k
  have h1' : |B.desired k - B.reported k q / B.scale k| < tol := h1
  have e : B.desired k - B.position k q / B.scale k = (B.desired k - B.reported k q / B.scale k) +
      (B.reported k q / B.scale k - B.position k q / B.scale k) := by ring
  rw [e]
  exact lt_of_le_of_lt (abs_add_le _ _) (by linarith)

/-- A condition on the number of points is needed: if no point of the scan is at the set point within the tolerance, the tuning is never
complete, whatever the device, the estimators and the settings of the tuner are. -/
theorem coarse_scan_is_never_tuned {B : Bench n m} {grad : Fin m → Vec n} {c : Vec n} {R : ℝ} (hB : B.Valid grad c R)
    {k : Fin m} {tol : ℝ} (hk : (B.row k).tolerance = some tol)
    (hcoarse : ∀ i < B.scan.nPoints, tol ≤ |B.desired k - linspace B.scan i / B.scale k|)
    {X : Type} (I : Newton.EstI X (Fin n)) (lstsq : Newton.Lstsq (Fin n)) (t : OneTuner X n)
    (ht : t.solver.target = List.ofFn B.row) (v : Vec n) (N : Nat)
    {s' : Autotuner.State (OneTuner X n) (Volt (Fin n)) (Volt (Fin n))}
    (hs' : iterates (hierarchy I lstsq B.outs) N (fresh t (volts v)) = .ok s') :
    isComplete (hierarchy I lstsq B.outs) s' = false := by
  obtain ⟨q, -, h | h⟩ := complete_met (bench_sound hB) I lstsq N (fresh t (volts v)) s' ht ⟨v, rfl, .inl rfl⟩ hs'
  · unfold isComplete
    rw [h]
    rfl
  · have h1 : |B.desired k - B.reported k q / B.scale k| < tol := h k tol hk
    obtain ⟨i, hi, hx⟩ := (bench_reported hB k q).2
    rw [hx] at h1
    exact absurd h1 (not_lt.2 (hcoarse i hi))

/-! ### The simulation of the package meets the hypotheses -/

/-- One transition as in `transition_simulation` (basic_dqd.py:148-160) with the default settings of `LeadTransition`; set point 0.5 mV. -/
noncomputable def simBench : Bench 2 1 where
  name := !["L", "O"]
  fixed := fun _ => 0
  wire := ⟨fun _ v => (v "L" - v "O") * 1e-3, fun m t => 0 + 1 * Real.tanh (t / (m.range / 5))⟩
  scan := ⟨"RFA", 0, 4e-3, 320⟩
  sweep := fun _ => "RFA"
  shift := fun _ => "RFB"
  width := 4e-3
  row := fun _ => ⟨"position_RFB", some (1 / 2), none, none, some (1 / 10), none, some 1e-3⟩
  gates := [0, 1]

noncomputable def simTuner : OneTuner (FD 2) 2 :=
  ⟨⟨(simBench.setup fun _ => ![1e-3, -1e-3]).target, [FD.new none (fun _ => 1 / 2) false], [0, 1], fun _ => none,
    [("position_RFB", none)]⟩, [], fun _ => none, [], [], false, [], none, 5, 0⟩

theorem bench_missing (B : Bench n m) (grad : Fin m → Vec n) (c : Vec n) :
    missing (B.setup grad) c = len fun k => B.desired k - B.reported k c / B.scale k := rfl

theorem simBench_spacing : spacing simBench.scan = 8e-3 / 319 := by
  simp [spacing, simBench]
  norm_num

theorem simBench_window : windowPoints simBench.scan = 16 := windowPoints_default _

theorem simBench_position (k : Fin 1) (v : Vec 2) : simBench.position k v = (v 0 - v 1) * 1e-3 := by
  simp [Bench.position, simBench, Bench.shifted, Bench.world, List.finRange_succ]

theorem simBench_valid : simBench.Valid (fun _ => ![1e-3, -1e-3]) (fun _ => 0) (37 / 20) where
  gates_nodup := by simp [simBench]
  gates_all := by intro i; fin_cases i <;> simp [simBench]
  nonempty := by simp
  shift := fun _ _ _ => Subsingleton.elim _ _
  names := fun _ => rfl
  desired := fun _ => rfl
  scale := fun _ => ⟨rfl, by simp [Bench.scale, simBench]; norm_num⟩
  tolerance := fun k tol h => by
    simp [simBench] at h
    rw [← h]
    norm_num
  range := by simp [simBench]; norm_num
  window := by rw [simBench_window]; simp [simBench]
  shape := fun k => by
    refine Signal.tanh_peaked one_ne_zero ?_ ?_
    · simp [Bench.measurement, simBench]
      norm_num
    · rw [simBench_window, simBench_spacing]
      norm_num
  affine := ⟨fun _ => 0, fun k v _ => by
    rw [simBench_position, Fin.sum_univ_two]
    simp
    ring⟩
  inView := fun k v hv => by
    rw [simBench_position]
    have h0 : |v 0| ≤ 37 / 20 := by simpa using (abs_le_len (v - fun _ => 0) 0).trans hv
    have h1 : |v 1| ≤ 37 / 20 := by simpa using (abs_le_len (v - fun _ => 0) 1).trans hv
    rw [abs_le] at h0 h1
    unfold inWindow Signal.nearest
    rw [simBench_window, simBench_spacing]
    simp only [simBench]
    rw [min_eq_right, max_eq_right]
    · norm_num
      linarith
    · norm_num
      linarith

theorem simBench_error : simBench.error = 16 / 319 := by
  unfold Bench.error
  rw [simBench_spacing]
  have : len (fun k => 1 / simBench.scale k) = 1000 := by
    simp [len, Bench.scale, simBench]
    rw [Real.sqrt_sq (by norm_num)]
    norm_num
  rw [this]
  norm_num

/-- All hypotheses are met from voltages 0, 0, with steps of 0.5 V: the transition is at 0, the set point 0.5 mV. -/
example : (∀ x : Fin 1 → ℝ, 7 / 5 * len x ≤ len fun i => ∑ k : Fin 1, x k * ((![1e-3, -1e-3] : Vec 2) i / simBench.scale k)) ∧
    Real.sqrt (2 : Nat) * (simBench.error / (1 / 2)) ≤ 3 / 20 ∧ 2 * (3 / 20) < (7 / 5 : ℝ) ∧
    InitialEven (simBench.setup fun _ => ![1e-3, -1e-3]) (fun _ => 0) (1 / 2) simTuner ∧
    missing (simBench.setup fun _ => ![1e-3, -1e-3]) (fun _ => 0) +
      steepness (simBench.setup fun _ => ![1e-3, -1e-3]) * (1 / 2) + simBench.error ≤ 13 / 10 ∧
    (∀ k tol, (simBench.row k).tolerance = some tol →
      (3 / 20 / (7 / 5 - 3 / 20)) ^ (1 + 1) * (13 / 10) + simBench.error / (1 - 3 / 20 / (7 / 5 - 3 / 20)) < tol) ∧
    1 / 2 + (13 / 10 + ((1 : Nat) + 1) * simBench.error) / (1 - 3 / 20 / (7 / 5 - 3 / 20)) / (7 / 5 - 3 / 20) ≤ 37 / 20 := by
  have hlen1 : ∀ f : Fin 1 → ℝ, len f = |f 0| := fun f => by
    simp [len, Real.sqrt_sq_eq_abs]
  refine ⟨?_, ?_, by norm_num, ?_, ?_, ?_, ?_⟩
  · intro x
    rw [hlen1]
    have : len (fun i => ∑ k : Fin 1, x k * ((![1e-3, -1e-3] : Vec 2) i / simBench.scale k)) = Real.sqrt 2 * |x 0| := by
      unfold len
      rw [← Real.sqrt_sq_eq_abs, ← Real.sqrt_mul (by norm_num)]
      congr 1
      simp [Bench.scale, simBench, Fin.sum_univ_two]
      ring
    rw [this]
    refine mul_le_mul_of_nonneg_right ?_ (abs_nonneg _)
    rw [Real.le_sqrt (by norm_num) (by norm_num)]
    norm_num
  · have : Real.sqrt (2 : Nat) ≤ 71 / 50 := by
      rw [Real.sqrt_le_iff]
      norm_num
    rw [simBench_error]
    nlinarith
  · exact ⟨rfl, ⟨fun _ => none, fun _ => .inl rfl, rfl⟩, rfl, rfl, by simp [simTuner, Series.index], rfl, rfl⟩
  · have h1 : missing (simBench.setup fun _ => ![1e-3, -1e-3]) (fun _ => 0) ≤ 1 / 2 + 8 / 319 := by
      rw [bench_missing, hlen1]
      have h2 := bench_near simBench_valid (v := fun _ => 0) (by simp [Near, len]; norm_num) 0
      rw [simBench_position, simBench_spacing] at h2
      have h3 : simBench.scale 0 = 1e-3 := by simp [Bench.scale, simBench]
      have h4 : |simBench.reported 0 (fun _ => 0) / simBench.scale 0| ≤ 8 / 319 := by
        rw [h3] at h2 ⊢
        norm_num at h2 ⊢
        exact h2
      have h5 : simBench.desired 0 = 1 / 2 := by simp [Bench.desired, simBench]
      rw [h5]
      rw [abs_le] at h4 ⊢
      constructor <;> linarith
    have h2 : steepness (simBench.setup fun _ => ![1e-3, -1e-3]) ≤ 71 / 50 := by
      unfold steepness
      rw [Real.sqrt_le_iff]
      simp [Bench.setup, Bench.scale, simBench, Fin.sum_univ_two]
      norm_num
    rw [simBench_error]
    linarith
  · intro k tol htol
    have ht : tol = 1 / 10 := by
      simp [simBench] at htol
      rw [← htol]
      norm_num
    rw [ht, simBench_error]
    norm_num
  · rw [simBench_error]
    norm_num

/-- The default scan is too coarse for the set point 0 with a tolerance of 0.01 mV: its points nearest to 0 are 0.0125 mV away. -/
example (i : Nat) : (1 / 100 : ℝ) ≤ |0 - linspace simBench.scan i / 1e-3| := by
  have h1 : linspace simBench.scan i / 1e-3 = (8 * (i : ℝ) - 1276) / 319 := by
    simp [linspace, simBench]
    norm_num
    ring
  rw [h1, zero_sub, abs_neg, le_abs]
  rcases Nat.lt_or_ge i 160 with h | h
  · have : (i : ℝ) ≤ 159 := by exact_mod_cast Nat.lt_succ_iff.1 h
    right
    linarith
  · have : (160 : ℝ) ≤ i := by exact_mod_cast h
    left
    linarith

end Qtune.EndToEnd
