import Verif.EndToEnd.ToldRun
import Verif.EndToEnd.PropsLimitedSource

/-!
# End to end: limits of the voltage source of which the experiment does not know
-/

namespace Qtune.EndToEnd

open Qtune.Tuner Qtune.Gradient Qtune.Autotuner

variable {n m : Nat}

/-- **C209**, the experiment reads back what it has been told: it does not know that the source has applied other
voltages, and the estimators and the solver work with voltages that may be arbitrarily far from those that are
applied.  The limits are a convex region `A`, and the source applies the nearest voltages in `A`.  If
the voltages around the start that the estimators ask for are in `A` and if some voltages `z` in `A` meet the set points,
every affine device with linearly independent gradients is tuned all the same: no call raises, the tuning is complete after at
most `3 * (n + N) + 4` calls, and the voltages that are applied then meet the set points. -/
theorem limited_told_is_tuned_partial {S : Setup n m} (hS : S.Valid) {orth : Orth n} (ho : OrthSpec orth)
    {lstsq : Newton.Lstsq (Fin n)} (hl : Newton.LstsqSpec lstsq) {src : Volt (Fin n) → Volt (Fin n)}
    {A : Vec n → Prop} (hsrc : Nearest src A) (c : Vec n) {η : ℝ} (hη : 0 < η)
    (t : OneTuner (FD n) n) (ht : InitialEven S c η t) (hroom : ∀ x, len x ≤ η → A (c + x))
    {z : Vec n} (hA : A z) (hz : ∀ k, S.response k z / S.scale k = S.desired k) {s : ℝ} (hs : 0 < s)
    (htol : ∀ k tol, (S.row k).tolerance = some tol → len (fun i => S.grad k i / S.scale k) * s ≤ tol)
    (N : Nat) (hN : (η + len (c - z)) ^ 2 < N * s ^ 2) :
    CompletesSourced S (fdI orth) lstsq src false (3 * (n + N) + 4) (fresh t (volts c)) := by
  have hn : n ≠ 0 := by
    rintro rfl
    have := hS.independent.fintype_card_le_finrank
    simp at this
    exact hS.nonempty this
  obtain ⟨hconv, hnear⟩ := hsrc
  choose app happ happA happN using hnear
  have hobt : ∀ q w, A w → ∑ i, (q i - app q i) * (w i - app q i) ≤ 0 :=
    fun q w hw => obtuse hconv (happA q) (happN q) hw
  have hin : ∀ q, A q → app q = q := by
    intro q hq
    have h1 := happN q q hq
    rw [sub_self] at h1
    have h2 : len (q - app q) ^ 2 = 0 := by
      have h3 : len (0 : Vec n) = 0 := by simp [len]
      rw [h3] at h1
      rw [le_antisymm h1 (len_nonneg _)]
      norm_num
    rw [len_sq, Finset.sum_eq_zero_iff_of_nonneg fun i _ => sq_nonneg _] at h2
    funext i
    have := pow_eq_zero_iff (two_ne_zero) |>.1 (h2 i (Finset.mem_univ i))
    simp only [Pi.sub_apply] at this
    linarith
  have hS' := behind_sound hS.toSound happ
  obtain ⟨start, hstart, hests⟩ := ht.ests
  have hmain : CompletesWithin (S.behind src app) (fdI orth) lstsq (3 * n + 1 + 3 * (N + 1)) (fresh t (volts c)) := by
    refine first_phase_any hS' hn ho c t (B := η) (η := some η) hstart (fun _ _ => ⟨hη, le_refl _⟩)
      (fun k h hh i => by cases hh; rfl)
      ⟨ht.target, hests, ht.gates, ht.index, rfl, rfl, ht.queued, ht.lastIndex⟩ (by rw [ht.maxStep]; simp) _ ?_
    intro E q t' d G h hq hd hsp hG
    have hdone : ∀ k, Done (fun i => S.grad k i / S.scale k) (E k) := by
      intro k
      have : G k = fun i => S.grad k i / S.scale k := eq_of_products hd fun j => by
        rw [(hG k).2 j]
        have h1 := (Setup.scaled_affine hS.affine k).sub (c + d j) c
        have h2 : app (c + d j) = c + d j := hin _ (hroom _ ((hsp η rfl).1 j).le)
        have h3 : app c = c := hin _ (by simpa using hroom 0 (by simpa [len] using hη.le))
        change S.scaled k (app (c + d j)) - S.scaled k (app c) = _
        rw [h2, h3]
        simpa using h1
      rw [← this]
      exact (hG k).1
    have hqA : app q = q := hin _ (by simpa using hroom _ hq)
    have hg : gained q z q (app q) = 0 := by
      rw [hqA]
      simp [gained]
    obtain ⟨x, hsug, hx, -⟩ := told_step hS (orth := orth) hl happ hz htol hdone h
    obtain ⟨t₂, hnext, hbase₂⟩ := suggestion (E' := E) (q' := q + x) h (by rw [ht.maxStep]; simp) hsug
    rw [show 3 * (N + 1) = 3 + 3 * N by ring]
    refine cycle_or hS' hnext hbase₂ (fun k y _ => ⟨E k, (hdone k).keeps _ _ _⟩) (3 * N) ?_
    intro y t'' _ hnot' hAt
    have hE : (fun k => ((fdI orth).update (volts (q + x)) (some ((S.behind src app).scaled k (q + x))) (some (y k))
        (E k)).1) = E := by
      funext k
      exact congrArg Prod.fst ((hdone k).keeps _ _ _)
    rw [hE] at hAt
    refine told_newton hS ht.maxStep hl happ happA hobt hA hz hs htol q E hdone N (q + x) t'' hAt hnot' ?_
    have h1 := gained_step (b := q) hx (hobt q _ (happA (q + x)))
    have h2 : len (q - z) ≤ η + len (c - z) := by
      have := len_add (q - c) (c - z)
      rw [sub_add_sub_cancel] at this
      linarith
    have h3 := pow_le_pow_left₀ (len_nonneg _) h2 2
    have h4 := sq_nonneg (len x)
    linarith
  obtain ⟨M, hM, s', hs', hcomp, q, hq, hmet⟩ := hmain
  exact ⟨M, by omega, s', hs', hcomp, app q, by rw [hq, happ], hmet⟩

/-- Limits of the single gates are of this kind. -/
theorem clip_nearest {lo hi : Vec n} (h : ∀ i, lo i ≤ hi i) : Nearest (clip lo hi) (Between lo hi) where
  convex := fun a b ha hb s h0 h1 i => by
    simp only [Pi.add_apply, Pi.sub_apply, Pi.smul_apply, smul_eq_mul]
    have h2 := ha i
    have h3 := hb i
    constructor <;> nlinarith
  nearest := fun q => by
    refine ⟨fun i => max (lo i) (min (hi i) (q i)), rfl, fun i => ⟨le_max_left _ _, max_le (h i) (min_le_left _ _)⟩,
      fun z hz => ?_⟩
    refine Real.sqrt_le_sqrt (Finset.sum_le_sum fun i _ => ?_)
    simp only [Pi.sub_apply]
    have h1 := hz i
    rw [sq_le_sq]
    rcases le_total (q i) (lo i) with h2 | h2
    · rw [min_eq_right (h2.trans (h i)), max_eq_left h2, abs_of_nonpos (by linarith), abs_of_nonpos (by linarith)]
      linarith
    · rcases le_total (q i) (hi i) with h3 | h3
      · rw [min_eq_right h3, max_eq_right h2, sub_self, abs_zero]
        exact abs_nonneg _
      · rw [min_eq_left h3, max_eq_right (h i), abs_of_nonneg (by linarith), abs_of_nonneg (by linarith)]
        linarith

/-- The hypotheses of `limited_told_is_tuned_partial` are met by two gates that stay between 7 and 9 and a set point that is
met at 7.5 and 8. -/
example : Nearest (clip (fun _ : Fin 2 => 7) fun _ => 9) (Between (fun _ => 7) fun _ => 9) ∧
    InitialEven sampleSetup (fun _ => 8) (1 / 2) sampleTuner ∧
    (∀ x : Vec 2, len x ≤ 1 / 2 → Between (fun _ => 7) (fun _ => 9) ((fun _ => 8) + x : Vec 2)) ∧
    Between (fun _ => 7) (fun _ => 9) (![15 / 2, 8] : Vec 2) ∧
    (∀ k, sampleSetup.response k ![15 / 2, 8] / sampleSetup.scale k = sampleSetup.desired k) ∧
    (∀ k tol, (sampleSetup.row k).tolerance = some tol →
      len (fun i => sampleSetup.grad k i / sampleSetup.scale k) * (1 / 6) ≤ tol) ∧
    ¬ SetPointsMet sampleSetup (fun _ => 8) := by
  refine ⟨clip_nearest fun _ => by norm_num, ?_, fun x => room_around_eight, ?_, ?_, ?_, ?_⟩
  · exact ⟨rfl, ⟨fun _ => none, fun _ => .inl rfl, rfl⟩, rfl, rfl, by simp [sampleTuner, Series.index], rfl, rfl⟩
  · intro i
    fin_cases i <;> norm_num
  · intro k
    simp [sampleSetup]
    norm_num
  · intro k tol hk
    obtain rfl : k = 0 := Subsingleton.elim _ _
    have ht : tol = 1 / 10 := by
      simp [sampleSetup] at hk
      rw [← hk]
      norm_num
    have := sample_slope
    rw [ht]
    linarith
  · intro h
    have := h 0 (1 / 10) rfl
    simp [sampleSetup] at this
    norm_num [abs_lt] at this

end Qtune.EndToEnd
