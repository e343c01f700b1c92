import Verif.EndToEnd.FlakyRun

/-!
# End to end: an affine device is tuned although evaluations fail
-/

namespace Qtune.EndToEnd

open Qtune.Tuner Qtune.Gradient Qtune.Autotuner

variable {n m : Nat}

/-- **C127**.  Evaluations fail now and then: a parameter is NaN.  Then an autotuner whose single tuner uses a Newton
solver and one-sided finite difference estimators still tunes every affine device with linearly independent
gradients, if the first evaluation works and never more than `L` evaluations in a row fail (or, more generally,
`Flaky`).  Failed evaluations are followed by evaluations closer to the last voltages that could be evaluated; the gradients are
found from the points at which the evaluation works, and each Newton step reduces what is missing at least by the
factor `1 - 2 ^ (-L)`.  `iterate` called at most `3 * (L + 1) * (n + N + 1) + 1` times never raises and ends with the
tuning complete, where `N` is such that this factor to the power `N + 1` times what can be missing when the gradients are
known is less than the tolerances. -/
theorem flaky_device_is_tuned {S : Setup n m} (hS : S.Valid) {outs : Nat → Volt (Fin n) → List Outcome} {L : Nat}
    {orth : Orth n} (ho : OrthSpec orth) {lstsq : Newton.Lstsq (Fin n)} (hl : Newton.LstsqSpec lstsq) (c : Vec n)
    (t : OneTuner (FD n) n) {B : ℝ} (ht : Initial S c B t) (hmax : t.maxStep = none)
    (hF : Flaky S t.lastValues.index outs L) (j : Nat) (hfirst : outs j (volts c) = S.outs (volts c)) (N : Nat)
    (htol : ∀ k tol, (S.row k).tolerance = some tol →
      (1 - (1 / 2 : ℝ) ^ L) ^ (N + 1) * (missing S c + steepness S * B) < tol) :
    CompletesFlaky S outs (fdI orth) lstsq (3 * (L + 1) * (n + N + 1) + 1) (fresh t (volts c, j)) := by
  have hn : n ≠ 0 := by
    rintro rfl
    have := hS.independent.fintype_card_le_finrank
    simp at this
    exact hS.nonempty this
  obtain ⟨start, eps, hstart, heps, hests⟩ := ht.ests
  have hbase : Base S (none, t.maxNumber) (fun k => FD.new (start k) (eps k) false) t :=
    ⟨ht.target, hests, ht.gates, ht.index, hmax, rfl, ht.queued, ht.lastIndex⟩
  have hstart' : ∀ k (y : ℝ), ∃ e', (fdI orth).update (volts c) (some (S.scaled k c)) (some y)
      (FD.new (start k) (eps k) false) = (e', .ok ()) ∧
      Col B none (S.scaled k) c (fun j : Fin 0 => (j.elim0 : Vec n)) e' := fun k y =>
    Col.start (f := S.scaled k) hn c (eps k) (fun i => (heps k i).1)
      (fun i => (heps k i).2) (fun h hh => by cases hh) (start k) (hstart k) y
  obtain ⟨y, t', b, hev, -, hAt, hb⟩ := evaluation
    (lstsq := lstsq) (I := fdI orth) hS.toSound hbase c (fun k y _ => by
      obtain ⟨e', he', -⟩ := hstart' k y
      exact ⟨e', he'⟩)
  rw [← hfirst] at hev
  have hgood := good_after hev hbase.queued rfl hAt.lastFailed
  have h1 : iterates (noisy (fdI orth) lstsq outs) 1 (fresh t (volts c, j)) =
      .ok ⟨t', (volts c, j + 1), if b then 1 else 0, !b, none⟩ := by
    have : (iterate (noisy (fdI orth) lstsq outs) (.ok ()) (fresh t (volts c, j))).1 =
        ⟨t', (volts c, j + 1), if b then 1 else 0, !b, none⟩ ∧
        (iterate (noisy (fdI orth) lstsq outs) (.ok ()) (fresh t (volts c, j))).2.2 = .ok () := by
      cases b <;> simp [iterate, fresh, noisy, isComplete, finish, hev]
    unfold iterates
    rcases hi : iterate (noisy (fdI orth) lstsq outs) (.ok ()) (fresh t (volts c, j)) with ⟨s₁, ev, r⟩
    rw [hi] at this
    simp only at this
    obtain ⟨rfl, rfl⟩ := this
    rfl
  cases b with
  | true => exact ⟨1, by omega, _, h1, rfl, c, rfl, hb.1 rfl⟩
  | false =>
    have hB : 0 ≤ B := by
      obtain ⟨k⟩ : Nonempty (Fin m) := ⟨⟨0, Nat.pos_of_ne_zero hS.nonempty⟩⟩
      have := heps k ⟨0, Nat.pos_of_ne_zero hn⟩
      linarith
    obtain ⟨M, hM, s', hs', hc⟩ := flaky_collect hS.toSound hF (B := B) ho (lstsq := lstsq) c rfl
      (3 * (L + 1) * (N + 1)) (by
        intro E q t'' d G j' hAt' hgood' hq hd hG
        have hslope : ∀ k, G k = fun i => S.grad k i / S.scale k := fun k => eq_of_products hd fun a => by
          rw [(hG k).2 a]
          have := (Setup.scaled_affine hS.affine k).sub (c + d a) c
          simpa using this
        refine flaky_newton hS hF rfl hl (fd_keeps S orth) N E q t'' _ j' hAt' hgood' (fun k => ?_) ?_ htol
        · rw [← hslope]
          exact (hG k).1
        · have hm : S.miss q = (fun k => S.desired k - S.response k c / S.scale k) +
              (-1 : ℝ) • act S.slope (q - c) := by
            funext k
            have := (Setup.scaled_affine hS.affine k).sub q c
            simp only [Setup.scaled_eq, Pi.sub_apply] at this
            simp only [Setup.miss, act, Pi.add_apply, Pi.smul_apply, smul_eq_mul, Setup.slope, Pi.sub_apply]
            linarith
          rw [hm]
          refine (len_add _ _).trans ?_
          rw [len_smul, abs_neg, abs_one, one_mul]
          exact add_le_add le_rfl ((act_le S.slope (q - c)).trans
            (mul_le_mul_of_nonneg_left hq (Real.sqrt_nonneg _)))) (n - 1) 0
      (by omega) (fun j : Fin 0 => (j.elim0 : Vec n)) (linearIndependent_empty_type) _ c t' (j + 1) hAt hgood
      (by simpa [len] using hB) (by simp) fun l => by
        obtain ⟨e', he', hcol⟩ := hstart' l (y l)
        rw [he']
        exact hcol
    refine ⟨1 + M, ?_, s', ?_, hc⟩
    · have : n - 1 + 1 = n := by omega
      rw [this] at hM
      calc 1 + M ≤ 1 + (3 * (L + 1) * n + 3 * (L + 1) * (N + 1)) := by omega
        _ = _ := by ring
    · rw [iterates_add _ 1 M _ _ h1]
      exact hs'

/-- **C127**, in short: the tuning is complete after finitely many calls; their number does not depend on which of the
evaluations fail. -/
theorem flaky_device_is_tuned_eventually {S : Setup n m} (hS : S.Valid) (L : Nat)
    {orth : Orth n} (ho : OrthSpec orth) {lstsq : Newton.Lstsq (Fin n)} (hl : Newton.LstsqSpec lstsq) (c : Vec n)
    (t : OneTuner (FD n) n) {B : ℝ} (ht : Initial S c B t) (hmax : t.maxStep = none) :
    ∃ N, ∀ outs, Flaky S t.lastValues.index outs L → ∀ j, outs j (volts c) = S.outs (volts c) →
      CompletesFlaky S outs (fdI orth) lstsq N (fresh t (volts c, j)) := by
  have h0 : (0 : ℝ) < (1 / 2) ^ L := by positivity
  have h1 : (1 / 2 : ℝ) ^ L ≤ 1 := pow_le_one₀ (by norm_num) (by norm_num)
  have hlim : Filter.Tendsto (fun N : Nat => (1 - (1 / 2 : ℝ) ^ L) ^ (N + 1) * (missing S c + steepness S * B))
      Filter.atTop (nhds (0 * (missing S c + steepness S * B))) :=
    ((tendsto_pow_atTop_nhds_zero_of_lt_one (by linarith) (by linarith)).comp
      (Filter.tendsto_add_atTop_nat 1)).mul_const _
  rw [zero_mul] at hlim
  have hev : ∀ᶠ N : Nat in Filter.atTop, ∀ k : Fin m, ∀ tol, (S.row k).tolerance = some tol →
      (1 - (1 / 2 : ℝ) ^ L) ^ (N + 1) * (missing S c + steepness S * B) < tol := by
    rw [Filter.eventually_all]
    intro k
    cases hk : (S.row k).tolerance with
    | none => exact Filter.Eventually.of_forall fun _ _ h => by cases h
    | some tol =>
      filter_upwards [hlim.eventually_lt_const (hS.tolerance k tol hk)] with N hN tol' htol'
      cases htol'
      exact hN
  obtain ⟨N, hN⟩ := hev.exists
  exact ⟨_, fun outs hF j hfirst => flaky_device_is_tuned hS ho hl c t ht hmax hF j hfirst N hN⟩

/-- Without an evaluation that worked before, the tuning ends with an exception: if the first evaluation fails, the
second call of `iterate` raises `IndexError`. -/
theorem first_failure_is_fatal {X : Type} {S : Setup n m} {μ : Val × Int} {E : Fin m → X} {I : Newton.EstI X (Fin n)}
    {lstsq : Newton.Lstsq (Fin n)} {outs : Nat → Volt (Fin n) → List Outcome} (c : Vec n) (t : OneTuner X n)
    (hbase : Base S μ E t) (hnew : t.evaluatable = []) (j : Nat)
    (hno : NoResult S.target t.lastValues.index (outs j (volts c))) :
    iterates (noisy I lstsq outs) 2 (fresh t (volts c, j)) = .error .indexError := by
  obtain ⟨t', hev, -, hfail, -, hevl, -⟩ := failed_evaluation (I := I) (lstsq := lstsq) hbase rfl hno (volts c)
  have hnext : nextVoltages (Newton.solver I lstsq) [] t' = (t', .error .indexError) := by
    unfold nextVoltages
    rw [if_pos hfail, hevl, hnew]
    rfl
  have h1 : iterate (noisy I lstsq outs) (.ok ()) (fresh t (volts c, j)) =
      (⟨t', (volts c, j + 1), 0, true, none⟩, (iterate (noisy I lstsq outs) (.ok ()) (fresh t (volts c, j))).2.1, .ok ()) := by
    simp [iterate, fresh, noisy, isComplete, finish, hev]
  rw [iterates, h1]
  simp only
  rw [iterates]
  simp [iterate, noisy, isComplete, hnext]

/-! ### A device that meets the hypotheses -/

/-- The results of `sampleSetup`; each third evaluation measures nothing. -/
noncomputable def flakyOuts (j : Nat) (v : Volt (Fin 2)) : List Outcome :=
  if j % 3 = 2 then [.ok ([("x", none)], [("x", none)])] else sampleSetup.outs v

noncomputable def flakyTuner : OneTuner (FD 2) 2 := { sampleTuner with lastValues := [("x", none)] }

example : Flaky sampleSetup flakyTuner.lastValues.index flakyOuts 1 ∧
    Initial sampleSetup (fun _ => 8) (1 / 2) flakyTuner ∧ flakyTuner.maxStep = none ∧
    flakyOuts 0 (volts fun _ => 8) = sampleSetup.outs (volts fun _ => 8) ∧
    NoResult sampleSetup.target flakyTuner.lastValues.index (flakyOuts 2 (volts fun _ => 8)) := by
  have hno : ∀ j v, j % 3 = 2 → NoResult sampleSetup.target flakyTuner.lastValues.index (flakyOuts j v) := by
    intro j v hj
    refine ⟨[("x", none)], [("x", none)], ?_, "x", by simp [flakyTuner, Series.index], by simp [Series.val, List.lookup]⟩
    simp [flakyOuts, hj, evaluate, collect, sampleSetup, Setup.target, Target.names, Series.select, Series.val,
      List.lookup]
  refine ⟨⟨fun j v => ?_, fun j g p => ?_⟩, ?_, rfl, by simp [flakyOuts], hno 2 _ rfl⟩
  · by_cases hj : j % 3 = 2
    · exact .inr (hno j _ hj)
    · exact .inl (by simp [flakyOuts, hj])
  · by_cases hj : j % 3 = 2
    · exact ⟨1, le_rfl, by simp only [flakyOuts]; rw [if_neg (by omega)]⟩
    · exact ⟨0, by omega, by simp only [flakyOuts]; rw [if_neg (by omega)]⟩
  · exact ⟨rfl, ⟨fun _ => none, fun _ _ => 1 / 2, fun _ => .inl rfl, fun _ _ => by norm_num, rfl⟩, rfl,
      rfl, by simp [flakyTuner, Series.index, sampleSetup, Setup.target, Target.names], rfl⟩

end Qtune.EndToEnd
