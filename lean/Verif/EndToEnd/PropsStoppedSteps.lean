import Verif.EndToEnd.StoppedSteps
import Verif.EndToEnd.PropsStopped

/-! # C212: a tuning with a maximal step size that is interrupted can be completed -/

namespace Qtune.EndToEnd

open Qtune.Tuner Qtune.Gradient Qtune.Kalman Qtune.Autotuner

variable {n m : Nat}

/-- **C212**, Kalman estimators that begin with the gradients of the device, with a maximal step size: whatever calls of `iterate` were made, and wherever
they were interrupted, also between the parts of a long step, further calls complete the tuning, none of which raises. -/
theorem stopped_steps_are_tuned_kalman_partial {S : Setup n m} (hS : S.Valid) (hpos : ∀ y ∈ S.variances, 0 < y)
    {eigh : Eigh} (heigh : EighSpec eigh) {nullspace : Nullspace} (hnull : NullspaceSpec nullspace)
    {lstsq : Newton.Lstsq (Fin n)} (hl : Newton.LstsqSpec lstsq) (c : Vec n) {t : OneTuner (Est n) n} {l : ℝ}
    (hl0 : 0 < l) (ht : KalmanInitial S l t) {M : ℝ} (hM : 0 < M) (hmax : t.maxStep = some M) (hnum : 1 ≤ t.maxNumber)
    (calls : List (Act (Volt (Fin n)) Unit)) (hcalls : OnlyIterates calls) :
    ∃ N, CompletesWithin S (kalmanI eigh nullspace) lstsq N
      (Autotuner.acts (hierarchy (kalmanI eigh nullspace) lstsq S.outs) (fresh t (volts c)) calls).1 := by
  have hn : n ≠ 0 := by
    rintro rfl
    have := hS.independent.fintype_card_le_finrank
    simp at this
    exact hS.nonempty this
  obtain ⟨E, hests, hE⟩ := ht.ests
  have hbase : Base S (some M, t.maxNumber) E t :=
    ⟨ht.target, hests, ht.gates, ht.index, hmax, rfl, ht.queued, ht.lastIndex⟩
  have hup : ∀ k e, (Certain (fun i => S.grad k i / S.scale k) l e ∧ (e.value = none ∨ Measured (S.scaled k) e)) →
      ∀ q, ∀ y ∈ S.seen k, ∃ e', (kalmanI eigh nullspace).update (volts q) (some (S.scaled k q)) (some y) e = (e', .ok ()) ∧
        (Certain (fun i => S.grad k i / S.scale k) l e' ∧ Measured (S.scaled k) e') := by
    rintro k e ⟨h1, h2⟩ q y ⟨v, hv, rfl⟩
    exact certain_update hS.affine h1 h2 q (div_pos (hpos v hv) (mul_self_pos.2 (hS.scale k).2))
  have hle : ∀ k e, (Certain (fun i => S.grad k i / S.scale k) l e ∧ Measured (S.scaled k) e) →
      (Certain (fun i => S.grad k i / S.scale k) l e ∧ (e.value = none ∨ Measured (S.scaled k) e)) :=
    fun k e h => ⟨h.1, .inr h.2⟩
  have hA := kalman_keeps hS hn hpos heigh hnull hl0
  have hsafe : SafeSteps S (some M, t.maxNumber) M (kalmanI eigh nullspace) lstsq
      (fun k e => Certain (fun i => S.grad k i / S.scale k) l e ∧ (e.value = none ∨ Measured (S.scaled k) e))
      (fun k e => Certain (fun i => S.grad k i / S.scale k) l e ∧ Measured (S.scaled k) e) (fresh t (volts c)) :=
    ⟨c, rfl, .inl rfl, .inl ⟨rfl, rfl, .inl ⟨E, hbase, hE⟩⟩⟩
  exact (hsafe.acts hS hM hnum hl hA hup hle calls hcalls).completes hS hM hnum hl hA hup hle

/-- **C212**, finite difference estimators that have found the gradients, with a maximal step size. -/
theorem stopped_steps_are_tuned_found_partial {S : Setup n m} (hS : S.Valid) (orth : Orth n)
    {lstsq : Newton.Lstsq (Fin n)} (hl : Newton.LstsqSpec lstsq) (c : Vec n) {t : OneTuner (FD n) n}
    (htarget : t.solver.target = S.target) {E : Fin m → FD n} (hests : t.solver.ests = List.ofFn E)
    (hE : ∀ k, (E k).pos ≠ none ∧ ∃ C, (E k).estimate = some (fun i => some (S.grad k i / S.scale k), C))
    (hgates : t.solver.gates = S.gates) (hindex : t.solver.values.index = S.target.names)
    (hlast : t.lastValues.index ⊆ S.target.names) (hqueued : t.queued = 0)
    {M : ℝ} (hM : 0 < M) (hmax : t.maxStep = some M) (hnum : 1 ≤ t.maxNumber)
    (calls : List (Act (Volt (Fin n)) Unit)) (hcalls : OnlyIterates calls) :
    ∃ N, CompletesWithin S (fdI orth) lstsq N (Autotuner.acts (hierarchy (fdI orth) lstsq S.outs) (fresh t (volts c)) calls).1 := by
  have hbase : Base S (some M, t.maxNumber) E t :=
    ⟨htarget, hests, hgates, hindex, hmax, rfl, hqueued, hlast⟩
  have hA := fd_keeps S orth
  have hup : ∀ k e, Done (fun i => S.grad k i / S.scale k) e → ∀ q, ∀ y ∈ S.seen k,
      ∃ e', (fdI orth).update (volts q) (some (S.scaled k q)) (some y) e = (e', .ok ()) ∧ Done (fun i => S.grad k i / S.scale k) e' :=
    fun k e he q y hy => (hA k).update _ he q y hy
  have hsafe : SafeSteps S (some M, t.maxNumber) M (fdI orth) lstsq (fun k => Done fun i => S.grad k i / S.scale k)
      (fun k => Done fun i => S.grad k i / S.scale k) (fresh t (volts c)) :=
    ⟨c, rfl, .inl rfl, .inl ⟨rfl, rfl, .inl ⟨E, hbase, fun k => ⟨(hE k).1, (hE k).2⟩⟩⟩⟩
  exact (hsafe.acts hS hM hnum hl hA hup (fun _ _ h => h) calls hcalls).completes hS hM hnum hl hA hup fun _ _ h => h

/-! ### Cases that meet the hypotheses -/

/-- Steps of at most 1, of which at most 5 are queued; the tuners meet the other hypotheses, too (`PropsKalman.lean`, `PropsStopped.lean`). -/
example : knownTuner.maxStep = some 1 ∧ 1 ≤ knownTuner.maxNumber ∧ foundTuner.maxStep = some 1 ∧ 1 ≤ foundTuner.maxNumber ∧
    foundTuner.queued = 0 :=
  ⟨rfl, by simp [knownTuner], rfl, by simp [foundTuner], rfl⟩

/-- The hypotheses on the Kalman tuner. -/
example : KalmanInitial sampleSetup 1 knownTuner := by
  refine ⟨rfl, ⟨fun _ => knownEst, rfl, fun k => ⟨⟨⟨rfl, rfl, rfl⟩, ?_, ?_, rfl, ?_⟩, .inl rfl⟩⟩, rfl, rfl,
    by simp [knownTuner, Series.index], rfl⟩
  · funext i
    fin_cases i <;> simp [knownEst, Est.estimate, KG.grad, KG.new, sampleSetup] <;> norm_num
  · exact Matrix.PosSemidef.one.smul (by norm_num)
  · intro v hv
    have h : variance knownEst.cov v = 1 / 2 * ∑ i, v i ^ 2 := by
      simp [variance, Est.cov, knownEst, KG.new, Fin.sum_univ_two, Matrix.one_apply]
      ring
    rw [h, hv]
    norm_num

end Qtune.EndToEnd
