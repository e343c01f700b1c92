import Verif.EndToEnd.PropsFlaky
import Verif.EndToEnd.PropsKalman

/-!
# End to end: evaluations fail, the estimators are Kalman estimators that know the gradients
-/

namespace Qtune.EndToEnd

open Qtune.Tuner Qtune.Gradient Qtune.Autotuner Qtune.Kalman Matrix

variable {n m : Nat}

/-- **C127** with Kalman estimators that know the gradients with an uncertainty below their limits: failed evaluations do not reach the estimators, and the tuning is
complete after at most `3 * (L + 1) * (N + 1) + 1` calls, where `N` is such that `(1 - 2 ^ (-L)) ^ (N + 1)` times what is missing at the start is less than the
tolerances. -/
theorem flaky_device_is_tuned_kalman {S : Setup n m} (hS : S.Valid) (hpos : ∀ y ∈ S.variances, 0 < y)
    {eigh : Eigh} (heigh : EighSpec eigh) {nullspace : Nullspace} (hnull : NullspaceSpec nullspace)
    {outs : Nat → Volt (Fin n) → List Outcome} {L : Nat} {lstsq : Newton.Lstsq (Fin n)} (hl : Newton.LstsqSpec lstsq) (c : Vec n)
    {t : OneTuner (Est n) n} {l : ℝ} (hl0 : 0 < l) (ht : KalmanInitial S l t) (hmax : t.maxStep = none)
    (hF : Flaky S t.lastValues.index outs L) (j : Nat) (hfirst : outs j (volts c) = S.outs (volts c)) (N : Nat)
    (htol : ∀ k tol, (S.row k).tolerance = some tol → (1 - (1 / 2 : ℝ) ^ L) ^ (N + 1) * missing S c < tol) :
    CompletesFlaky S outs (kalmanI eigh nullspace) lstsq (3 * (L + 1) * (N + 1) + 1) (fresh t (volts c, j)) := by
  have hn : n ≠ 0 := by
    rintro rfl
    have := hS.independent.fintype_card_le_finrank
    simp at this
    exact hS.nonempty this
  obtain ⟨E, hests, hE⟩ := ht.ests
  have hbase : Base S (none, t.maxNumber) E t :=
    ⟨ht.target, hests, ht.gates, ht.index, hmax, rfl, ht.queued, ht.lastIndex⟩
  have hupd : ∀ k, ∀ y ∈ S.seen k, ∃ e', (kalmanI eigh nullspace).update (volts c) (some (S.scaled k c))
      (some y) (E k) = (e', .ok ()) ∧ Certain (fun i => S.grad k i / S.scale k) l e' ∧ Measured (S.scaled k) e' := by
    rintro k y ⟨v, hv, rfl⟩
    exact certain_update hS.affine (hE k).1 (hE k).2 c (div_pos (hpos v hv) (mul_self_pos.2 (hS.scale k).2))
  obtain ⟨y, t', b, hev, hy, hAt, hb⟩ := evaluation (lstsq := lstsq) (I := kalmanI eigh nullspace) hS.toSound hbase c
    (fun k y hy => by
      obtain ⟨e', he', -⟩ := hupd k y hy
      exact ⟨e', he'⟩)
  rw [← hfirst] at hev
  have hgood := good_after hev hbase.queued rfl hAt.lastFailed
  have h1 : iterates (noisy (kalmanI eigh nullspace) lstsq outs) 1 (fresh t (volts c, j)) =
      .ok ⟨t', (volts c, j + 1), if b then 1 else 0, !b, none⟩ := by
    have : (iterate (noisy (kalmanI eigh nullspace) lstsq outs) (.ok ()) (fresh t (volts c, j))).1 =
        ⟨t', (volts c, j + 1), if b then 1 else 0, !b, none⟩ ∧
        (iterate (noisy (kalmanI eigh nullspace) lstsq outs) (.ok ()) (fresh t (volts c, j))).2.2 = .ok () := by
      cases b <;> simp [iterate, fresh, noisy, isComplete, finish, hev]
    unfold iterates
    rcases hi : iterate (noisy (kalmanI eigh nullspace) lstsq outs) (.ok ()) (fresh t (volts c, j)) with ⟨s₁, ev, r⟩
    rw [hi] at this
    simp only at this
    obtain ⟨rfl, rfl⟩ := this
    rfl
  cases b with
  | true => exact ⟨1, by omega, _, h1, rfl, c, rfl, hb.1 rfl⟩
  | false =>
    obtain ⟨M, hM, s', hs', hc⟩ := flaky_newton hS hF rfl hl (kalman_keeps hS hn hpos heigh hnull hl0) N _ c t' (missing S c) (j + 1) hAt hgood
      (fun k => by
        obtain ⟨e', he', hA⟩ := hupd k (y k) (hy k)
        rw [he']
        exact hA) (le_refl _) htol
    refine ⟨1 + M, by omega, s', ?_, hc⟩
    rw [iterates_add _ 1 M _ _ h1]
    exact hs'

/-- Each third evaluation fails. -/
noncomputable def flakyKalmanTuner : OneTuner (Est 2) 2 := { knownTuner with lastValues := [("x", none)], maxStep := none }

example : Flaky sampleSetup flakyKalmanTuner.lastValues.index flakyOuts 1 ∧ KalmanInitial sampleSetup 1 flakyKalmanTuner ∧
    flakyKalmanTuner.maxStep = none ∧ (∀ y ∈ sampleSetup.variances, 0 < y) ∧
    (∀ k tol, (sampleSetup.row k).tolerance = some tol → (1 - (1 / 2 : ℝ) ^ 1) ^ (1 + 1) * missing sampleSetup (fun _ => 8) < tol) := by
  have hno : ∀ j v, j % 3 = 2 → NoResult sampleSetup.target flakyKalmanTuner.lastValues.index (flakyOuts j v) := by
    intro j v hj
    refine ⟨[("x", none)], [("x", none)], ?_, "x", by simp [flakyKalmanTuner, Series.index], by simp [Series.val, List.lookup]⟩
    simp [flakyOuts, hj, evaluate, collect, sampleSetup, Setup.target, Target.names, Series.select, Series.val,
      List.lookup]
  refine ⟨⟨fun j v => ?_, fun j g p => ?_⟩, ⟨rfl, ⟨fun _ => knownEst, rfl, fun k => ⟨⟨⟨rfl, rfl, rfl⟩, ?_, ?_, rfl, ?_⟩, .inl rfl⟩⟩, rfl, rfl,
    by simp [flakyKalmanTuner, Series.index, sampleSetup, Setup.target, Target.names], rfl⟩, rfl, ?_, ?_⟩
  · by_cases hj : j % 3 = 2
    · exact .inr (hno j _ hj)
    · exact .inl (by simp [flakyOuts, hj])
  · by_cases hj : j % 3 = 2
    · exact ⟨1, le_rfl, by simp only [flakyOuts]; rw [if_neg (by omega)]⟩
    · exact ⟨0, by omega, by simp only [flakyOuts]; rw [if_neg (by omega)]⟩
  · funext i
    fin_cases i <;> simp [knownEst, Est.estimate, KG.grad, KG.new, sampleSetup] <;> norm_num
  · exact PosSemidef.one.smul (by norm_num)
  · intro v hv
    have h : variance knownEst.cov v = 1 / 2 * ∑ i, v i ^ 2 := by
      simp [variance, Est.cov, knownEst, KG.new, Fin.sum_univ_two, one_apply]
      ring
    rw [h, hv]
    norm_num
  · intro y hy
    rw [Set.mem_singleton_iff.1 hy]
    norm_num
  · intro k tol hk
    have ht : tol = 1 / 10 := by
      simp [sampleSetup] at hk
      rw [← hk]
      norm_num
    have hm : missing sampleSetup (fun _ => 8) = 1 / 4 := by
      rw [missing, len]
      simp [sampleSetup]
      rw [Real.sqrt_sq_eq_abs]
      norm_num [abs_of_neg]
    rw [ht, hm]
    norm_num

end Qtune.EndToEnd
