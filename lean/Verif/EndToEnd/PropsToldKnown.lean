import Verif.EndToEnd.PropsLimitedTold
import Verif.EndToEnd.PropsLimitedKnown

/-!
# End to end: limits of which the experiment does not know, gradients that are known
-/

namespace Qtune.EndToEnd

open Qtune.Tuner Qtune.Gradient Qtune.Autotuner

variable {n m : Nat}

/-- **C209**, the experiment reads back what it has been told, and the finite difference estimators have found the gradients before.  The tuning may begin
anywhere within the limits, also at a limit: it is complete after at most `3 * N + 4` calls.  (Kalman estimators go on learning from the voltages that are not
applied; they are not covered here.) -/
theorem limited_told_is_tuned_found {S : Setup n m} (hS : S.Valid) (orth : Orth n)
    {lstsq : Newton.Lstsq (Fin n)} (hl : Newton.LstsqSpec lstsq) {src : Volt (Fin n) → Volt (Fin n)}
    {A : Vec n → Prop} (hsrc : Nearest src A) (c : Vec n) (hAc : A c) {t : OneTuner (FD n) n}
    (htarget : t.solver.target = S.target) {E : Fin m → FD n} (hests : t.solver.ests = List.ofFn E)
    (hE : ∀ k, (E k).pos ≠ none ∧ ∃ C, (E k).estimate = some (fun i => some (S.grad k i / S.scale k), C))
    (hgates : t.solver.gates = S.gates) (hindex : t.solver.values.index = S.target.names)
    (hlast : t.lastValues.index ⊆ S.target.names) (hqueued : t.queued = 0) (hmax : t.maxStep = none)
    {z : Vec n} (hA : A z) (hz : ∀ k, S.response k z / S.scale k = S.desired k) {s : ℝ} (hs : 0 < s)
    (htol : ∀ k tol, (S.row k).tolerance = some tol → len (fun i => S.grad k i / S.scale k) * s ≤ tol)
    (N : Nat) (hN : len (c - z) ^ 2 < N * s ^ 2) :
    CompletesSourced S (fdI orth) lstsq src false (3 * N + 4) (fresh t (volts c)) := by
  obtain ⟨hconv, hnear⟩ := hsrc
  choose app happ happA happN using hnear
  have hobt : ∀ q w, A w → ∑ i, (q i - app q i) * (w i - app q i) ≤ 0 :=
    fun q w hw => obtuse hconv (happA q) (happN q) hw
  have hc : app c = c := by
    have h1 := happN c c hAc
    rw [sub_self] at h1
    have h2 : len (c - app c) ^ 2 = 0 := by
      have h3 : len (0 : Vec n) = 0 := by simp [len]
      rw [h3] at h1
      rw [le_antisymm h1 (len_nonneg _)]
      norm_num
    rw [len_sq, Finset.sum_eq_zero_iff_of_nonneg fun i _ => sq_nonneg _] at h2
    funext i
    have := pow_eq_zero_iff (two_ne_zero) |>.1 (h2 i (Finset.mem_univ i))
    simp only [Pi.sub_apply] at this
    linarith
  have hS' := behind_sound hS.toSound happ
  have hdone : ∀ k, Done (fun i => S.grad k i / S.scale k) (E k) := fun k => ⟨(hE k).1, (hE k).2⟩
  have hbase : Base (S.behind src app) (t.maxStep, t.maxNumber) E t :=
    ⟨htarget, hests, hgates, hindex, rfl, rfl, hqueued, hlast⟩
  have hmain : CompletesWithin (S.behind src app) (fdI orth) lstsq (1 + 3 * (N + 1)) (fresh t (volts c)) := by
    refine first_evaluation hS' hbase c (A := fun k e => e = E k) (fun k y _ => ⟨E k, (hdone k).keeps _ _ _, rfl⟩) _ ?_
    intro E' t' h hE'
    obtain rfl : E' = E := funext hE'
    have hg : gained c z c (app c) = 0 := by
      rw [hc]
      simp [gained]
    obtain ⟨x, hsug, hx, -⟩ := told_step hS (orth := orth) hl happ hz htol hdone h
    obtain ⟨t₂, hnext, hbase₂⟩ := suggestion (E' := E') (q' := c + x) h (by rw [hmax]; simp) hsug
    rw [show 3 * (N + 1) = 3 + 3 * N by ring]
    refine cycle_or hS' hnext hbase₂ (fun k y _ => ⟨E' k, (hdone k).keeps _ _ _⟩) (3 * N) ?_
    intro y t'' _ hnot' hAt
    have hE : (fun k => ((fdI orth).update (volts (c + x)) (some ((S.behind src app).scaled k (c + x))) (some (y k))
        (E' k)).1) = E' := by
      funext k
      exact congrArg Prod.fst ((hdone k).keeps _ _ _)
    rw [hE] at hAt
    refine told_newton hS hmax hl happ happA hobt hA hz hs htol c E' hdone N (c + x) t'' hAt hnot' ?_
    have h1 := gained_step (b := c) hx (hobt c _ (happA (c + x)))
    have h4 := sq_nonneg (len x)
    linarith
  obtain ⟨M, hM, s', hs', hcomp, q, hq, hmet⟩ := hmain
  exact ⟨M, by omega, s', hs', hcomp, app q, by rw [hq, happ], hmet⟩

/-- Both gates start at their upper limit. -/
example : Nearest (clip (fun _ : Fin 2 => 7) fun _ => 8) (Between (fun _ => 7) fun _ => 8) ∧
    Between (fun _ => 7) (fun _ => 8) (fun _ : Fin 2 => (8 : ℝ)) ∧ ({ foundTuner with maxStep := none }).maxStep = none ∧
    foundTuner.queued = 0 ∧ foundTuner.lastValues.index ⊆ sampleSetup.target.names :=
  ⟨clip_nearest fun _ => by norm_num, fun _ => by norm_num, rfl, rfl, by simp [foundTuner, Series.index]⟩

end Qtune.EndToEnd
