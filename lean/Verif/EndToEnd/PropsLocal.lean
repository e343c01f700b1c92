import Verif.EndToEnd.LocalRun

/-! # C158: devices that work only near the start -/

namespace Qtune.EndToEnd

open Qtune.Tuner Qtune.Gradient Qtune.Autotuner

variable {n m : Nat}

/-- **C158**.  As C125, for a device whose evaluators only work and whose responses are only nearly affine at most `R` away from the
start `c`: if `R` is at least `η` (the gradients are measured there) plus the length of the way that the Newton steps can
take, the tuning is complete after at most `3 * n + 1 + 3 * (N + 1)` calls, none of which raises, and the gates never have voltages
farther away.  What the evaluators do elsewhere does not matter. -/
theorem local_device_is_tuned {S : Setup n m} {c : Vec n} {R : ℝ} (hS : S.SoundOn (Near c R)) {κ δ σ ρ η : ℝ} (hκ : 0 ≤ κ)
    (hδ : 0 ≤ δ) (hη : 0 < η) (hbend : NearlyAffineOn S (Near c R) κ δ) (hσ : Conditioned S σ)
    (hρ : Real.sqrt n * (κ + δ / η) ≤ ρ)
    (hρσ : 2 * ρ + κ < σ) {orth : Orth n} (ho : OrthSpec orth) {lstsq : Newton.Lstsq (Fin n)}
    (hls : Newton.LstsqSpec lstsq) (t : OneTuner (FD n) n) (ht : InitialEven S c η t) (N : Nat)
    (htol : ∀ k tol, (S.row k).tolerance = some tol →
      ((ρ + κ) / (σ - ρ)) ^ (N + 1) * (missing S c + steepness S * η + κ * η + δ) +
        δ / (1 - (ρ + κ) / (σ - ρ)) < tol)
    (hR : η + (missing S c + steepness S * η + κ * η + δ + (N + 1) * δ) / (1 - (ρ + κ) / (σ - ρ)) / (σ - ρ) ≤ R) :
    CompletesInside S (fdI orth) lstsq (Near c R) (3 * n + 1 + 3 * (N + 1)) (fresh t (volts c)) := by
  have hρ0 : 0 ≤ ρ := le_trans (by positivity) hρ
  have hτ : 0 < σ - ρ := by linarith
  have ha1 : 0 < 1 - (ρ + κ) / (σ - ρ) := by
    rw [sub_pos, div_lt_one hτ]; linarith
  have hb0 : 0 ≤ missing S c + steepness S * η + κ * η + δ := by
    have h1 : 0 ≤ missing S c := len_nonneg _
    have h2 : 0 ≤ steepness S := Real.sqrt_nonneg _
    positivity
  have hηR : η ≤ R := by
    have : 0 ≤ (missing S c + steepness S * η + κ * η + δ + (N + 1) * δ) / (1 - (ρ + κ) / (σ - ρ)) / (σ - ρ) := by positivity
    linarith
  have hcc : Near c R c := by
    unfold Near
    simp [len]
    linarith
  obtain ⟨y, hy, -⟩ := hS.evaluators c hcc
  have hS' := everywhere_sound hS (hy ⟨0, Nat.pos_of_ne_zero hS.nonempty⟩)
  apply inside_of_everywhere (y := y ⟨0, Nat.pos_of_ne_zero hS.nonempty⟩)
  generalize y ⟨0, Nat.pos_of_ne_zero hS.nonempty⟩ = y₀ at hS'
  have hbend' : NearlyAffineOn (everywhere S (Near c R) y₀) (Near c R) κ δ := hbend
  have hσ' : Conditioned (everywhere S (Near c R) y₀) σ := hσ
  have hn := gates_of_conditioned hS' (by linarith) hσ'
  obtain ⟨start, hstart, hests⟩ := ht.ests
  refine first_inside hS' hn ho c t (B := η) (η := some η) (fun v hv => hv.trans hηR) hstart (fun _ _ => ⟨hη, le_refl _⟩)
    (fun k h hh i => by cases hh; rfl)
    ⟨ht.target, hests, ht.gates, ht.index, rfl, rfl, ht.queued, ht.lastIndex⟩ (by rw [ht.maxStep]; simp) _ ?_
  intro E q t' d G hAt hq hd hsp hG
  have hfrob : frob (G - (everywhere S (Near c R) y₀).slope) ≤ ρ := by
    refine differences_close hη hρ hsp (by positivity) fun j => ?_
    have hdj := (hsp η rfl).1 j
    have h1 := hbend' c (d j) hcc (by
      unfold Near
      rw [add_sub_cancel_left, hdj]
      exact hηR)
    rw [hdj] at h1
    refine le_trans (le_of_eq ?_) h1
    congr 1
    funext k
    rw [(hG k).2 j]
    rfl
  refine robust_inside hS' hbend' hκ hδ hσ' hρ0 hρσ hls ht.maxStep hfrob N E q t' _ hAt (fun k => (hG k).1) hb0 ?_ htol ?_
  · have hpos : 0 ≤ δ / (1 - (ρ + κ) / (σ - ρ)) := by positivity
    let r : Fin m → ℝ := fun k => S.response k (c + (q - c)) / S.scale k - S.response k c / S.scale k -
      ∑ i, S.grad k i / S.scale k * (q - c) i
    have hm : (everywhere S (Near c R) y₀).miss q = (fun k => S.desired k - S.response k c / S.scale k) +
        (-1 : ℝ) • (act S.slope (q - c) + r) := by
      funext k
      simp only [Setup.miss, act, r, Pi.add_apply, Pi.smul_apply, smul_eq_mul, Setup.slope, add_sub_cancel, everywhere]
      ring
    have h1 : len ((everywhere S (Near c R) y₀).miss q) ≤ missing S c + (len (act S.slope (q - c)) + len r) := by
      rw [hm]
      refine (len_add _ _).trans ?_
      rw [len_smul]
      have := len_add (act S.slope (q - c)) r
      norm_num
      exact add_le_add le_rfl this
    have h2 : len r ≤ κ * len (q - c) + δ := hbend c (q - c) hcc (by
      rw [add_sub_cancel]
      exact hq.trans hηR)
    have h3 : len (act S.slope (q - c)) ≤ steepness S * len (q - c) := act_le S.slope (q - c)
    have h4 : steepness S * len (q - c) ≤ steepness S * η := mul_le_mul_of_nonneg_left hq (Real.sqrt_nonneg _)
    have h5 := mul_le_mul_of_nonneg_left hq hκ
    linarith
  · linarith

/-! ### A device that works only near the start -/

/-- A response that is not nearly affine on the whole, with the gradient of `sampleSetup` at the start 8, 8. -/
noncomputable def curvedResponse (v : Vec 2) : ℝ := 2 * v 0 - v 1 + 5 + (v 0 - 8) ^ 2 / 150

/-- The evaluator raises for voltages more than 3 away from the start. -/
noncomputable def curvedSetup : Setup 2 1 :=
  open Classical in
  { sampleSetup with
    response := fun _ v => curvedResponse v
    outs := fun v => if Near (fun _ => 8) 3 (fun i => (v i).getD 0) then
      [.ok ([("x", some (curvedResponse fun i => (v i).getD 0))], [("x", some 1)])] else [.error .evaluationError] }

noncomputable def curvedTuner : OneTuner (FD 2) 2 :=
  ⟨⟨curvedSetup.target, [FD.new none (fun _ => 1 / 2) false], [0, 1], fun _ => none, [("x", none)]⟩,
    [], fun _ => none, [], [], false, [], none, 5, 0⟩

theorem curvedSetup_sound : curvedSetup.SoundOn (Near (fun _ => 8) 3) where
  gates_nodup := sampleSetup_valid.gates_nodup
  gates_all := sampleSetup_valid.gates_all
  names := sampleSetup_valid.names
  desired := sampleSetup_valid.desired
  scale := sampleSetup_valid.scale
  tolerance := sampleSetup_valid.tolerance
  nonempty := by simp
  evaluators := fun v hv => by
    refine ⟨fun _ => 1, fun _ => rfl, ?_⟩
    have : curvedSetup.outs (fun i => some (v i)) = [.ok ([("x", some (curvedResponse v))], [("x", some 1)])] := by
      simp only [curvedSetup, Option.getD_some]
      rw [if_pos hv]
    rw [this]
    simp [evaluate, collect, curvedSetup, sampleSetup, Setup.target, Target.names, Series.select,
      Series.val, List.lookup]

/-- The hypotheses are met with `R = 3`, `κ = 1/100`, `δ = 0`, `σ = 1/2`, `ρ = 3/200` and steps of `1/2`; the start does not meet
the set point. -/
example : NearlyAffineOn curvedSetup (Near (fun _ => 8) 3) (1 / 100) 0 ∧ Conditioned curvedSetup (1 / 2) ∧
    Real.sqrt (2 : Nat) * (1 / 100 + 0 / (1 / 2)) ≤ (3 / 200 : ℝ) ∧ (2 * (3 / 200) + 1 / 100 : ℝ) < 1 / 2 ∧
    InitialEven curvedSetup (fun _ => 8) (1 / 2) curvedTuner ∧ ¬ SetPointsMet curvedSetup (fun _ => 8) ∧
    (∀ k tol, (curvedSetup.row k).tolerance = some tol →
      ((3 / 200 + 1 / 100) / (1 / 2 - 3 / 200)) ^ (1 + 1) *
        (missing curvedSetup (fun _ => 8) + steepness curvedSetup * (1 / 2) + 1 / 100 * (1 / 2) + 0) +
        0 / (1 - (3 / 200 + 1 / 100) / (1 / 2 - 3 / 200)) < tol) ∧
    1 / 2 + (missing curvedSetup (fun _ => 8) + steepness curvedSetup * (1 / 2) + 1 / 100 * (1 / 2) + 0 + ((1 : Nat) + 1) * 0) /
      (1 - (3 / 200 + 1 / 100) / (1 / 2 - 3 / 200)) / (1 / 2 - 3 / 200) ≤ (3 : ℝ) := by
  have hlen1 : ∀ f : Fin 1 → ℝ, len f = |f 0| := fun f => by
    simp [len, Real.sqrt_sq_eq_abs]
  have hmiss : missing curvedSetup (fun _ => 8) ≤ 1 / 4 := by
    unfold missing
    rw [hlen1]
    simp [curvedSetup, sampleSetup, curvedResponse]
    norm_num [abs_le]
  have hsteep : steepness curvedSetup ≤ 1 := by
    unfold steepness
    rw [Real.sqrt_le_iff]
    simp [curvedSetup, sampleSetup, Fin.sum_univ_two]
    norm_num
  refine ⟨?_, ?_, ?_, by norm_num, ?_, ?_, ?_, ?_⟩
  · intro v s hv hvs
    rw [hlen1]
    have h0 := abs_le_len s 0
    have h1 : |v 0 - 8| ≤ 3 := (abs_le_len (v - fun _ => 8) 0).trans hv
    have h2 : |v 0 + s 0 - 8| ≤ 3 := (abs_le_len (v + s - fun _ => 8) 0).trans hvs
    have e : curvedSetup.response 0 (v + s) / curvedSetup.scale 0 - curvedSetup.response 0 v / curvedSetup.scale 0 -
        ∑ i, curvedSetup.grad 0 i / curvedSetup.scale 0 * s i =
        1 / 600 * (s 0 * ((v 0 + s 0 - 8) + (v 0 - 8))) := by
      simp only [curvedSetup, sampleSetup, curvedResponse, Fin.sum_univ_two, Pi.add_apply, Matrix.cons_val_zero,
        Matrix.cons_val_one]
      ring
    show |curvedSetup.response 0 (v + s) / curvedSetup.scale 0 - curvedSetup.response 0 v / curvedSetup.scale 0 -
        ∑ i, curvedSetup.grad 0 i / curvedSetup.scale 0 * s i| ≤ _
    rw [e, abs_mul, abs_mul]
    have h3 := (abs_add_le (v 0 + s 0 - 8) (v 0 - 8)).trans (add_le_add h2 h1)
    have h4 := mul_le_mul h0 h3 (abs_nonneg _) (len_nonneg s)
    rw [abs_of_pos (by norm_num : (0 : ℝ) < 1 / 600)]
    linarith
  · intro x
    rw [hlen1]
    have : len (fun i => ∑ k, x k * (curvedSetup.grad k i / curvedSetup.scale k)) = Real.sqrt (5 / 16) * |x 0| := by
      unfold len
      rw [← Real.sqrt_sq_eq_abs, ← Real.sqrt_mul (by norm_num)]
      congr 1
      simp [curvedSetup, sampleSetup, Fin.sum_univ_two]
      ring
    rw [this]
    refine mul_le_mul_of_nonneg_right ?_ (abs_nonneg _)
    rw [Real.le_sqrt (by norm_num) (by norm_num)]
    norm_num
  · have : Real.sqrt (2 : Nat) ≤ 3 / 2 := by
      rw [Real.sqrt_le_iff]
      norm_num
    nlinarith
  · exact ⟨rfl, ⟨fun _ => none, fun _ => .inl rfl, rfl⟩, rfl, rfl, by simp [curvedTuner, Series.index], rfl, rfl⟩
  · intro h
    have := h 0 (1 / 10) rfl
    simp [curvedSetup, sampleSetup, curvedResponse] at this
    norm_num [abs_lt] at this
  · intro k tol htol
    have ht : tol = 1 / 10 := by
      simp [curvedSetup, sampleSetup] at htol
      rw [← htol]
      norm_num
    rw [ht]
    norm_num
    linarith
  · norm_num
    linarith

end Qtune.EndToEnd
