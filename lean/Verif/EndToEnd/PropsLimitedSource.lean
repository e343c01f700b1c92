import Verif.EndToEnd.LimitsSliceRun
import Verif.EndToEnd.PropsSource
import Mathlib.Tactic.FinCases

/-!
# End to end: the limits of the voltage source
-/

namespace Qtune.EndToEnd

open Qtune.Tuner Qtune.Gradient Qtune.Autotuner

variable {n m : Nat}

/-- **C209**.  The source cannot leave the region `A`, and the experiment reads back what is applied.  If the voltages
around the start that the estimators ask for are in `A` and if some voltages `z` in `A` meet the set points, every affine
device with linearly independent gradients is tuned, although Newton steps may lead out of `A`: no call raises, the
tuning is complete after at most `3 * (n + N) + 1` calls, and the voltages that are applied then meet the
set points.  `s` is a step that changes no parameter by more than its tolerance; `N` depends on it and on the distance of `z`.
If there is a maximal step size, `s` and the steps of the estimators must not exceed it; longer steps are made in slices, each of
which may be cut by the source. -/
theorem limited_source_is_tuned_partial {S : Setup n m} (hS : S.Valid) {orth : Orth n} (ho : OrthSpec orth)
    {lstsq : Newton.Lstsq (Fin n)} (hl : Newton.LstsqSpec lstsq) {src : Volt (Fin n) → Volt (Fin n)}
    {A : Vec n → Prop} (hsrc : Limited src A) (v c : Vec n) (hc : src (volts v) = volts c) {B : ℝ}
    (t : OneTuner (FD n) n) (ht : InitialWithin S c B t) (hroom : ∀ x, len x ≤ B → A (c + x))
    {z : Vec n} (hA : A z) (hz : ∀ k, S.response k z / S.scale k = S.desired k) {s : ℝ} (hs : 0 < s)
    (hmax : ∀ M, t.maxStep = some M → 2 * B ≤ M ∧ s ≤ M ∧ 1 ≤ t.maxNumber)
    (htol : ∀ k tol, (S.row k).tolerance = some tol → len (fun i => S.grad k i / S.scale k) * s ≤ tol)
    (N : Nat) (hN : (B + len (c - z)) ^ 2 < N * s ^ 2) :
    CompletesSourced S (fdI orth) lstsq src true (3 * (n + N) + 1) (fresh t (volts v)) := by
  have hn : n ≠ 0 := by
    rintro rfl
    have := hS.independent.fintype_card_le_finrank
    simp at this
    exact hS.nonempty this
  obtain ⟨start, eps, hstart, heps, hests⟩ := ht.ests
  have hB : 0 ≤ B := by
    have k₀ : Fin m := ⟨0, Nat.pos_of_ne_zero hS.nonempty⟩
    have i₀ : Fin n := ⟨0, Nat.pos_of_ne_zero hn⟩
    exact (heps k₀ i₀).1.le.trans (heps k₀ i₀).2
  have hbase : Base S (t.maxStep, t.maxNumber) (fun k => FD.new (start k) (eps k) false) t :=
    ⟨ht.target, hests, ht.gates, ht.index, rfl, rfl, ht.queued, ht.lastIndex⟩
  have hfirst : ∀ k (y : ℝ), ∃ e', (fdI orth).update (volts c) (some (S.scaled k c)) (some y)
      (FD.new (start k) (eps k) false) = (e', .ok ()) ∧
      Col B none (S.scaled k) c (fun j : Fin 0 => (j.elim0 : Vec n)) e' := fun k y =>
    Col.start (f := S.scaled k) hn c (eps k) (fun i => (heps k i).1) (fun i => (heps k i).2) (fun h hh => by cases hh)
      (start k) (hstart k) y
  obtain ⟨y, t', b, hev, -, hAt, hb⟩ := evaluation (lstsq := lstsq) (I := fdI orth) hS.toSound hbase c
    (fun k y _ => by obtain ⟨e', he', -⟩ := hfirst k y; exact ⟨e', he'⟩)
  have h1 : iterates (sourced (fdI orth) lstsq S.outs src true) 1 (fresh t (volts v)) =
      .ok ⟨t', volts v, if b then 1 else 0, !b, none⟩ := by
    have : (iterate (sourced (fdI orth) lstsq S.outs src true) (.ok ()) (fresh t (volts v))).1 =
        ⟨t', volts v, if b then 1 else 0, !b, none⟩ ∧
        (iterate (sourced (fdI orth) lstsq S.outs src true) (.ok ()) (fresh t (volts v))).2.2 = .ok () := by
      cases b <;> simp [iterate, fresh, sourced, hierarchy, isComplete, finish, hc, hev]
    unfold iterates
    rcases hi : iterate (sourced (fdI orth) lstsq S.outs src true) (.ok ()) (fresh t (volts v)) with ⟨s₁, ev, r⟩
    rw [hi] at this
    simp only at this
    obtain ⟨rfl, rfl⟩ := this
    rfl
  cases b with
  | true => exact ⟨1, by omega, _, h1, rfl, c, hc, hb.1 rfl⟩
  | false =>
    obtain ⟨M, hM, s', hs', hcomp⟩ := limited_collect hS.toSound (μ := (t.maxStep, t.maxNumber)) (B := B) (fun M hM => (hmax M hM).1) ho (lstsq := lstsq) hsrc c hroom (3 * N) (by
        intro E q w t₁ d G h hd hG hq hAq hnot
        have hdone : ∀ k, Done (fun i => S.grad k i / S.scale k) (E k) := by
          intro k
          have : G k = fun i => S.grad k i / S.scale k := eq_of_products hd fun j => by
            rw [(hG k).2 j]
            have := (Setup.scaled_affine hS.affine k).sub (c + d j) c
            simpa using this
          rw [← this]
          exact (hG k).1
        refine limited_newton_phase hS hl hsrc hA hz hs (fun M hM => (hmax M hM).2) htol (fd_keeps S orth) N E q w t₁ hdone h hAq hnot ?_
        have h2 : len (q - z) ≤ B + len (c - z) := by
          have := len_add (q - c) (c - z)
          rw [sub_add_sub_cancel] at this
          linarith
        exact (pow_le_pow_left₀ (len_nonneg _) h2 2).trans_lt hN) (n - 1) 0 (by omega) (fun j : Fin 0 => (j.elim0 : Vec n))
      linearIndependent_empty_type _ c (volts v) t' hAt (by simpa [len] using hB) (fun j => by
        obtain ⟨e', he', hcol⟩ := hfirst j (y j)
        rw [he']
        exact hcol)
    refine ⟨1 + M, by omega, s', ?_, hcomp⟩
    rw [iterates_add _ 1 M _ _ h1]
    exact hs'

/-- **C209**: when the tuning is complete, the voltages that are applied are within the limits and meet the set points,
wherever the tuning began and whatever the estimators do. -/
theorem complete_limited_meets {S : Setup n m} (hS : S.Sound) {X : Type} (I : Newton.EstI X (Fin n))
    (lstsq : Newton.Lstsq (Fin n)) {src : Volt (Fin n) → Volt (Fin n)} {A : Vec n → Prop} (hsrc : Limited src A) (back : Bool)
    (c : Vec n) (t : OneTuner X n) (ht : t.solver.target = S.target) (N : Nat)
    (s' : Autotuner.State (OneTuner X n) (Volt (Fin n)) (Volt (Fin n)))
    (hs : iterates (sourced I lstsq S.outs src back) N (fresh t (volts c)) = .ok s')
    (hcomp : isComplete (sourced I lstsq S.outs src back) s' = true) :
    ∃ p : Vec n, src s'.expt = volts p ∧ A p ∧ SetPointsMet S p := by
  have htot : ∀ q : Vec n, ∃ p : Vec n, src (volts q) = volts p := fun q => (hsrc.nearest q).imp fun _ h => h.1
  obtain ⟨p, hp⟩ := htot c
  obtain ⟨q, hq, p', hp', h⟩ := sourced_complete_met hS I lstsq htot back N _ s' ht ⟨c, rfl, p, hp, .inl rfl⟩ hs
  obtain ⟨p₂, hp₂, hA, -⟩ := hsrc.nearest q
  have hpp : p₂ = p' := by
    rw [hp'] at hp₂
    funext i
    exact (Option.some.inj (congrFun hp₂ i)).symm
  subst hpp
  refine ⟨p₂, by rw [hq, hp'], hA, h.resolve_left fun h0 => ?_⟩
  unfold isComplete at hcomp
  rw [h0] at hcomp
  simp [sourced, hierarchy] at hcomp

/-- **C209**: if no voltages within the limits meet the set points, the tuning is never complete. -/
theorem unreachable_never_complete {S : Setup n m} (hS : S.Sound) {X : Type} (I : Newton.EstI X (Fin n))
    (lstsq : Newton.Lstsq (Fin n)) {src : Volt (Fin n) → Volt (Fin n)} {A : Vec n → Prop} (hsrc : Limited src A) (back : Bool)
    (hnone : ∀ p, A p → ¬ SetPointsMet S p)
    (c : Vec n) (t : OneTuner X n) (ht : t.solver.target = S.target) (N : Nat)
    (s' : Autotuner.State (OneTuner X n) (Volt (Fin n)) (Volt (Fin n)))
    (hs : iterates (sourced I lstsq S.outs src back) N (fresh t (volts c)) = .ok s') :
    isComplete (sourced I lstsq S.outs src back) s' = false := by
  rw [← Bool.not_eq_true]
  intro hcomp
  obtain ⟨p, -, hA, hmet⟩ := complete_limited_meets hS I lstsq hsrc back c t ht N s' hs hcomp
  exact hnone p hA hmet

/-! ### Limits that meet the hypotheses -/

theorem room_around_eight {x : Vec 2} (hx : len x ≤ 1 / 2) :
    Between (fun _ => 7) (fun _ => 9) ((fun _ => 8) + x : Vec 2) := by
  intro i
  have h1 : len x ^ 2 ≤ (1 / 2) ^ 2 := pow_le_pow_left₀ (len_nonneg _) hx 2
  rw [len_sq] at h1
  have h2 : x i ^ 2 ≤ (1 / 2) ^ 2 := (Finset.single_le_sum (f := fun i => x i ^ 2) (fun i _ => sq_nonneg _) (Finset.mem_univ i)).trans h1
  have h3 := abs_le_of_sq_le_sq' h2 (by norm_num)
  simp only [Pi.add_apply]
  constructor <;> linarith [h3.1, h3.2]

/-- The hypotheses of `limited_source_is_tuned_partial` are met by two gates that stay between 7 and 9 and a set point that is met
at 7.5 and 8. -/
example : Limited (clip (fun _ : Fin 2 => 7) fun _ => 9) (Between (fun _ => 7) fun _ => 9) ∧
    clip (fun _ => 7) (fun _ => 9) (volts fun _ : Fin 2 => 8) = volts (fun _ => 8) ∧
    InitialWithin sampleSetup (fun _ => 8) (1 / 2) { sampleTuner with maxStep := some 1 } ∧
    2 * (1 / 2) ≤ (1 : ℝ) ∧ 1 ≤ sampleTuner.maxNumber ∧
    (∀ x : Vec 2, len x ≤ 1 / 2 → Between (fun _ => 7) (fun _ => 9) ((fun _ => 8) + x : Vec 2)) ∧
    Between (fun _ => 7) (fun _ => 9) (![15 / 2, 8] : Vec 2) ∧
    (∀ k, sampleSetup.response k ![15 / 2, 8] / sampleSetup.scale k = sampleSetup.desired k) ∧
    (∀ k tol, (sampleSetup.row k).tolerance = some tol →
      len (fun i => sampleSetup.grad k i / sampleSetup.scale k) * (1 / 6) ≤ tol) ∧
    ¬ SetPointsMet sampleSetup (fun _ => 8) := by
  refine ⟨clip_limited fun _ => by norm_num, (clip_limited fun _ => by norm_num).inside _ fun _ => by norm_num, ?_, by norm_num,
    by simp [sampleTuner], fun x => room_around_eight, ?_, ?_, ?_, ?_⟩
  · exact ⟨rfl, ⟨fun _ => none, fun _ _ => 1 / 2, fun _ => .inl rfl, fun _ _ => by norm_num, rfl⟩, rfl, rfl,
      by simp [sampleTuner, Series.index], rfl⟩
  · intro i
    fin_cases i <;> norm_num
  · intro k
    simp [sampleSetup]
    norm_num
  · intro k tol hk
    obtain rfl : k = 0 := Subsingleton.elim _ _
    have ht : tol = 1 / 10 := by
      simp [sampleSetup] at hk
      rw [← hk]
      norm_num
    have := sample_slope
    rw [ht]
    linarith
  · intro h
    have := h 0 (1 / 10) rfl
    simp [sampleSetup] at this
    norm_num [abs_lt] at this

/-- Limits out of which the set point of `sampleSetup` cannot be met. -/
example : Limited (clip (fun _ : Fin 2 => 8) fun _ => 8) (Between (fun _ => 8) fun _ => 8) ∧
    ∀ p : Vec 2, Between (fun _ => 8) (fun _ => 8) p → ¬ SetPointsMet sampleSetup p := by
  refine ⟨clip_limited fun _ => le_refl _, fun p hp h => ?_⟩
  obtain rfl : p = fun _ => 8 := by
    funext i
    exact le_antisymm (hp i).2 (hp i).1
  have := h 0 (1 / 10) rfl
  simp [sampleSetup] at this
  norm_num [abs_lt] at this

end Qtune.EndToEnd
