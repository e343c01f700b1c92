import Verif.EndToEnd.PropsLimitedSource
import Verif.EndToEnd.PropsKalman

/-!
# End to end: the limits of the voltage source, gradients that are known
-/

namespace Qtune.EndToEnd

open Qtune.Tuner Qtune.Gradient Qtune.Autotuner Qtune.Kalman Matrix

variable {n m : Nat}

/-- The first evaluation with a source. -/
theorem sourced_first {X : Type} {S : Setup n m} (hS : S.Sound) {μ : Val × Int} {I : Newton.EstI X (Fin n)}
    {lstsq : Newton.Lstsq (Fin n)} {src : Volt (Fin n) → Volt (Fin n)} {v c : Vec n} (hc : src (volts v) = volts c)
    {E : Fin m → X} {A : Fin m → X → Prop} {t : OneTuner X n} (hbase : Base S μ E t)
    (hupd : ∀ k, ∀ y ∈ S.seen k, ∃ e', I.update (volts c) (some (S.scaled k c)) (some y) (E k) = (e', .ok ()) ∧ A k e')
    (N : Nat) (hcont : ∀ (E' : Fin m → X) (t' : OneTuner X n), At S μ E' c t' → (∀ k, A k (E' k)) → ¬ SetPointsMet S c →
      CompletesSourced S I lstsq src true N ⟨t', volts v, 0, true, none⟩) :
    CompletesSourced S I lstsq src true (1 + N) (fresh t (volts v)) := by
  obtain ⟨y, t', b, hev, hy, hAt, hb⟩ := evaluation (lstsq := lstsq) (I := I) hS hbase c
    (fun k y hy => by obtain ⟨e', he', -⟩ := hupd k y hy; exact ⟨e', he'⟩)
  have h1 : iterates (sourced I lstsq S.outs src true) 1 (fresh t (volts v)) =
      .ok ⟨t', volts v, if b then 1 else 0, !b, none⟩ := by
    have : (iterate (sourced I lstsq S.outs src true) (.ok ()) (fresh t (volts v))).1 =
        ⟨t', volts v, if b then 1 else 0, !b, none⟩ ∧
        (iterate (sourced I lstsq S.outs src true) (.ok ()) (fresh t (volts v))).2.2 = .ok () := by
      cases b <;> simp [iterate, fresh, sourced, hierarchy, isComplete, finish, hc, hev]
    unfold iterates
    rcases hi : iterate (sourced I lstsq S.outs src true) (.ok ()) (fresh t (volts v)) with ⟨s₁, ev, r⟩
    rw [hi] at this
    simp only at this
    obtain ⟨rfl, rfl⟩ := this
    rfl
  cases b with
  | true => exact ⟨1, by omega, _, h1, rfl, c, hc, hb.1 rfl⟩
  | false =>
    obtain ⟨M, hM, s', hs', hcomp⟩ := hcont _ t' hAt (fun k => by
      obtain ⟨e', he', hA⟩ := hupd k (y k) (hy k)
      rw [he']
      exact hA) (fun hmet => by simpa using hb.2 hmet)
    refine ⟨1 + M, by omega, s', ?_, hcomp⟩
    rw [iterates_add _ 1 M _ _ h1]
    exact hs'

/-- **C209**, Kalman estimators that know the gradients.  They do not ask for measurements, so that the tuning may begin anywhere,
also at a limit: if some voltages `z` within the limits meet the set points, it is complete after at most `3 * N + 1` calls. -/
theorem limited_source_is_tuned_kalman {S : Setup n m} (hS : S.Valid) (hpos : ∀ y ∈ S.variances, 0 < y)
    {eigh : Eigh} (heigh : EighSpec eigh) {nullspace : Nullspace} (hnull : NullspaceSpec nullspace)
    {lstsq : Newton.Lstsq (Fin n)} (hl : Newton.LstsqSpec lstsq) {src : Volt (Fin n) → Volt (Fin n)}
    {A : Vec n → Prop} (hsrc : Limited src A) (v c : Vec n) (hc : src (volts v) = volts c) {t : OneTuner (Est n) n} {l : ℝ}
    (hl0 : 0 < l) (ht : KalmanInitial S l t)
    {z : Vec n} (hA : A z) (hz : ∀ k, S.response k z / S.scale k = S.desired k) {s : ℝ} (hs : 0 < s)
    (hmax : ∀ M, t.maxStep = some M → s ≤ M ∧ 1 ≤ t.maxNumber)
    (htol : ∀ k tol, (S.row k).tolerance = some tol → len (fun i => S.grad k i / S.scale k) * s ≤ tol)
    (N : Nat) (hN : len (c - z) ^ 2 < N * s ^ 2) :
    CompletesSourced S (kalmanI eigh nullspace) lstsq src true (3 * N + 1) (fresh t (volts v)) := by
  have hn : n ≠ 0 := by
    rintro rfl
    have := hS.independent.fintype_card_le_finrank
    simp at this
    exact hS.nonempty this
  obtain ⟨E, hests, hE⟩ := ht.ests
  have hbase : Base S (t.maxStep, t.maxNumber) E t :=
    ⟨ht.target, hests, ht.gates, ht.index, rfl, rfl, ht.queued, ht.lastIndex⟩
  obtain ⟨p, hp, hAp, -⟩ := hsrc.nearest v
  obtain rfl : p = c := by
    rw [hp] at hc
    funext i
    exact Option.some.inj (congrFun hc i)
  rw [Nat.add_comm]
  refine sourced_first hS.toSound hc hbase (A := fun k e => Certain (fun i => S.grad k i / S.scale k) l e ∧
    Measured (S.scaled k) e) ?_ (3 * N) fun E' t' hAt hE' hnot =>
      limited_newton_phase hS hl hsrc hA hz hs hmax htol (kalman_keeps hS hn hpos heigh hnull hl0) N E' p _ t' hE' hAt hAp hnot hN
  rintro k y ⟨w, hw, rfl⟩
  exact certain_update hS.affine (hE k).1 (hE k).2 p (div_pos (hpos w hw) (mul_self_pos.2 (hS.scale k).2))

/-- **C209**, finite difference estimators that have found the gradients. -/
theorem limited_source_is_tuned_found {S : Setup n m} (hS : S.Valid) (orth : Orth n)
    {lstsq : Newton.Lstsq (Fin n)} (hl : Newton.LstsqSpec lstsq) {src : Volt (Fin n) → Volt (Fin n)}
    {A : Vec n → Prop} (hsrc : Limited src A) (v c : Vec n) (hc : src (volts v) = volts c) {t : OneTuner (FD n) n}
    (htarget : t.solver.target = S.target) {E : Fin m → FD n} (hests : t.solver.ests = List.ofFn E)
    (hE : ∀ k, (E k).pos ≠ none ∧ ∃ C, (E k).estimate = some (fun i => some (S.grad k i / S.scale k), C))
    (hgates : t.solver.gates = S.gates) (hindex : t.solver.values.index = S.target.names)
    (hlast : t.lastValues.index ⊆ S.target.names) (hqueued : t.queued = 0)
    {z : Vec n} (hA : A z) (hz : ∀ k, S.response k z / S.scale k = S.desired k) {s : ℝ} (hs : 0 < s)
    (hmax : ∀ M, t.maxStep = some M → s ≤ M ∧ 1 ≤ t.maxNumber)
    (htol : ∀ k tol, (S.row k).tolerance = some tol → len (fun i => S.grad k i / S.scale k) * s ≤ tol)
    (N : Nat) (hN : len (c - z) ^ 2 < N * s ^ 2) :
    CompletesSourced S (fdI orth) lstsq src true (3 * N + 1) (fresh t (volts v)) := by
  have hbase : Base S (t.maxStep, t.maxNumber) E t :=
    ⟨htarget, hests, hgates, hindex, rfl, rfl, hqueued, hlast⟩
  obtain ⟨p, hp, hAp, -⟩ := hsrc.nearest v
  obtain rfl : p = c := by
    rw [hp] at hc
    funext i
    exact Option.some.inj (congrFun hc i)
  rw [Nat.add_comm]
  refine sourced_first hS.toSound hc hbase (A := fun k => Done fun i => S.grad k i / S.scale k) ?_ (3 * N)
    fun E' t' hAt hE' hnot =>
      limited_newton_phase hS hl hsrc hA hz hs hmax htol (fd_keeps S orth) N E' p _ t' hE' hAt hAp hnot hN
  intro k y hy
  exact (fd_keeps S orth k).update _ ⟨(hE k).1, (hE k).2⟩ p y hy

/-- A tuner whose estimator has found the gradient of `sampleSetup`. -/
noncomputable def foundTuner : OneTuner (FD 2) 2 :=
  ⟨⟨sampleSetup.target, [{ FD.new (some fun _ => 8) (fun _ => 1 / 2) false with
      estimate := some (fun i => some (sampleSetup.grad 0 i / sampleSetup.scale 0), none) }],
    [0, 1], fun _ => none, [("x", none)]⟩, [], fun _ => none, [], [], false, [], some 1, 5, 0⟩

/-- The start is at the upper limit of both gates, and the step to the nearest solution is cut at the second one. -/
example : Limited (clip (fun _ : Fin 2 => 7) fun _ => 8) (Between (fun _ => 7) fun _ => 8) ∧
    clip (fun _ => 7) (fun _ => 8) (volts fun _ : Fin 2 => 8) = volts (fun _ => 8) ∧
    (knownTuner.maxStep = some 1 ∧ 1 ≤ knownTuner.maxNumber) ∧ (foundTuner.maxStep = some 1 ∧ 1 ≤ foundTuner.maxNumber) ∧
    (∃ E : Fin 1 → FD 2, foundTuner.solver.ests = List.ofFn E ∧ ∀ k, (E k).pos ≠ none ∧
      ∃ C, (E k).estimate = some (fun i => some (sampleSetup.grad k i / sampleSetup.scale k), C)) ∧
    foundTuner.solver.target = sampleSetup.target ∧ foundTuner.solver.gates = sampleSetup.gates ∧
    foundTuner.solver.values.index = sampleSetup.target.names ∧
    Between (fun _ => 7) (fun _ => 8) (![15 / 2, 8] : Vec 2) ∧
    (∀ k, sampleSetup.response k ![15 / 2, 8] / sampleSetup.scale k = sampleSetup.desired k) ∧
    (∀ k tol, (sampleSetup.row k).tolerance = some tol →
      len (fun i => sampleSetup.grad k i / sampleSetup.scale k) * (1 / 6) ≤ tol) := by
  refine ⟨clip_limited fun _ => by norm_num, (clip_limited fun _ => by norm_num).inside _ fun _ => by norm_num,
    ⟨rfl, by simp [knownTuner]⟩, ⟨rfl, by simp [foundTuner]⟩, ⟨fun _ => _, rfl, fun k => ⟨by simp [FD.new], none, ?_⟩⟩, rfl, rfl, rfl,
    ?_, ?_, ?_⟩
  · obtain rfl : k = 0 := Subsingleton.elim _ _
    rfl
  · intro i
    fin_cases i <;> norm_num
  · intro k
    simp [sampleSetup]
    norm_num
  · intro k tol hk
    obtain rfl : k = 0 := Subsingleton.elim _ _
    have ht : tol = 1 / 10 := by
      simp [sampleSetup] at hk
      rw [← hk]
      norm_num
    have := sample_slope
    rw [ht]
    linarith

end Qtune.EndToEnd
