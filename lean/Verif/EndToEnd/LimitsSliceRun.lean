import Verif.EndToEnd.LimitsRun
import Verif.EndToEnd.Cycles

/-! # Sources with limits: steps that are cut into slices -/

namespace Qtune.EndToEnd

open Qtune.Tuner Qtune.Gradient Qtune.Autotuner

variable {n m : Nat} {X : Type}

/-- One slice of the length `M` of the step `x`, followed by the source: it leads closer to `z`. -/
theorem slice_step {src : Volt (Fin n) → Volt (Fin n)} {A : Vec n → Prop} (hsrc : Limited src A) {z q x : Vec n} (hz : A z)
    (hq : A q) {M : ℝ} (hM : 0 < M) (hx : M < len x) {j : ℝ} (hj : 1 ≤ j)
    (hinv : ∑ i, x i * (q i - z i) ≤ -(j * (M / len x)) * len x ^ 2) :
    ∃ p, src (volts (q + (M / len x) • x)) = volts p ∧ A p ∧ len (p - z) ^ 2 ≤ len (q - z) ^ 2 - M ^ 2 ∧
      ∑ i, x i * (p i - z i) ≤ -((j - 1) * (M / len x)) * len x ^ 2 := by
  obtain ⟨p, hp, hA, hnear⟩ := hsrc.nearest (q + (M / len x) • x)
  have hL : 0 < len x := hM.trans hx
  obtain ⟨μ, hμ⟩ : ∃ μ, μ = M / len x := ⟨_, rfl⟩
  have hμ0 : 0 < μ := by rw [hμ]; positivity
  have hμM : μ * len x = M := by rw [hμ]; field_simp
  rw [← hμ] at hp hnear hinv ⊢
  refine ⟨p, hp, hA, ?_, ?_⟩
  · have h1 := pow_le_pow_left₀ (len_nonneg _) (hnear z hz) 2
    have h2 : len (q + μ • x - z) ^ 2 = len (q - z) ^ 2 + 2 * μ * (∑ i, x i * (q i - z i)) + μ ^ 2 * len x ^ 2 := by
      rw [len_sq, len_sq, len_sq, Finset.mul_sum, Finset.mul_sum, ← Finset.sum_add_distrib, ← Finset.sum_add_distrib]
      refine Finset.sum_congr rfl fun i _ => ?_
      simp only [Pi.add_apply, Pi.sub_apply, Pi.smul_apply, smul_eq_mul]
      ring
    have h3 := mul_le_mul_of_nonneg_left hinv (show 0 ≤ 2 * μ by linarith)
    have h4 : M ^ 2 = μ ^ 2 * len x ^ 2 := by rw [← hμM]; ring
    have h5 : 0 ≤ (j - 1) * (μ ^ 2 * len x ^ 2) := mul_nonneg (by linarith) (by positivity)
    rw [h4]
    nlinarith
  · have h1 := hnear q hq
    have h2 : len (q + μ • x - q) = μ * len x := by
      rw [add_sub_cancel_left, len_smul, abs_of_pos hμ0]
    rw [h2] at h1
    have h3 := (le_abs_self _).trans (abs_product_le x (p - q))
    have h4 := mul_le_mul_of_nonneg_left h1 hL.le
    have h5 : ∑ i, x i * (p i - z i) = ∑ i, x i * (q i - z i) + ∑ i, x i * (p - q) i := by
      rw [← Finset.sum_add_distrib]
      refine Finset.sum_congr rfl fun i _ => ?_
      simp only [Pi.sub_apply]
      ring
    rw [h5]
    nlinarith

/-- The rest of the way, `j + 1` slices, and the evaluation at the end. -/
theorem limited_way {S : Setup n m} (hS : S.Valid) {I : Newton.EstI X (Fin n)} {lstsq : Newton.Lstsq (Fin n)}
    {src : Volt (Fin n) → Volt (Fin n)} {R : Vec n → Prop} (hsrc : Limited src R) {z : Vec n} (hz : R z)
    {μ : Val × Int} {E : Fin m → X} {q₀ x : Vec n} {t₀ : OneTuner X n} (h₀ : At S μ E q₀ t₀)
    {A : Fin m → X → Prop} (hA : ∀ k, Keeps S I k (A k)) (hdone : ∀ k, A k (E k)) {M r : ℝ} (hM : 0 < M)
    (hr : 0 < r) (hrM : r ≤ M)
    (hmax : t₀.maxStep = some M) (hlong : M < len x)
    (hshift : ∀ q' : Vec n, Newton.suggest I lstsq [] { t₀.solver with pos := volts q' } =
      ({ t₀.solver with pos := volts q' }, .ok fun i => some (some ((q' + x) i)))) (N₀ : Nat)
    (hcont : ∀ N < N₀, ∀ (E' : Fin m → X) (p : Vec n) (v : Volt (Fin n)) (t'' : OneTuner X n), (∀ k, A k (E' k)) →
        At S μ E' p t'' → R p → ¬ SetPointsMet S p → len (p - z) ^ 2 < N * r ^ 2 →
        CompletesSourced S I lstsq src true (3 * N) ⟨t'', v, 0, true, none⟩) :
    ∀ (j : Nat) (N : Nat) (q : Vec n) (v : Volt (Fin n)) (t : OneTuner X n), N ≤ N₀ → Way t₀ q t →
      left (len x) M t = j + 1 → R q → ∑ i, x i * (q i - z i) ≤ -(((j + 1 : Nat) : ℝ) * (M / len x)) * len x ^ 2 →
      len (q - z) ^ 2 < N * r ^ 2 →
      CompletesSourced S I lstsq src true (3 * N) ⟨t, v, 0, true, none⟩ := by
  intro j
  induction j with
  | zero =>
    intro N q v t hN h hleft hq hinv hlen
    obtain ⟨N, rfl⟩ : ∃ K, N = K + 1 := by
      cases N with
      | zero => exfalso; have := sq_nonneg (len (q - z)); simp at hlen; linarith
      | succ K => exact ⟨K, rfl⟩
    have hnext := way_next (I := I) (lstsq := lstsq) hM hmax hlong hshift h
    rw [hleft] at hnext
    obtain ⟨p, hp, hRp, hless, -⟩ := slice_step hsrc hz hq hM hlong (by simp) hinv
    have hb : Base S μ E { t with queued := ((0 : Nat) : Int) + 1 - 1 } := by
      refine ⟨?_, ?_, ?_, ?_, ?_, ?_, by simp, ?_⟩
      · simp only [h.solver]; exact h₀.target
      · simp only [h.solver]; exact h₀.ests
      · simp only [h.solver]; exact h₀.gates
      · simp only [h.solver]; exact h₀.index
      · exact h.maxStep.trans h₀.maxStep
      · exact h.maxNumber.trans h₀.maxNumber
      · simp only [h.lastValues]; exact h₀.lastIndex
    rw [show 3 * (N + 1) = 3 + 3 * N by ring]
    refine sourced_cycle_or hS.toSound hp hnext hb (fun k y hy => by
      obtain ⟨e', he', -⟩ := (hA k).update _ (hdone k) p y hy
      exact ⟨e', he'⟩) (3 * N) ?_
    intro y t'' hy hnot hAt
    refine hcont N (by omega) _ p _ t'' (fun k => ?_) hAt hRp hnot ?_
    · obtain ⟨e', he', hA'⟩ := (hA k).update _ (hdone k) p (y k) (hy k)
      rw [he']
      exact hA'
    · have := pow_le_pow_left₀ hr.le hrM 2
      push_cast at hlen
      linarith
  | succ j ih =>
    intro N q v t hN h hleft hq hinv hlen
    obtain ⟨N, rfl⟩ : ∃ K, N = K + 1 := by
      cases N with
      | zero => exfalso; have := sq_nonneg (len (q - z)); simp at hlen; linarith
      | succ K => exact ⟨K, rfl⟩
    have hnext := way_next (I := I) (lstsq := lstsq) hM hmax hlong hshift h
    rw [hleft] at hnext
    have hq' : (((j + 1 : Nat) : Int) + 1 - 1) = (j : Int) + 1 := by push_cast; ring
    rw [hq'] at hnext
    obtain ⟨p, hp, hRp, hless, hinv'⟩ := slice_step hsrc hz hq hM hlong (by
      have : (0 : ℝ) ≤ ((j + 1 : Nat) : ℝ) := by positivity
      push_cast at this ⊢
      linarith) hinv
    let t'' : OneTuner X n := { t with
      queued := (j : Int) + 1
      lastVoltage := volts p
      solver := { t.solver with pos := volts p } }
    have hev : isTuned (Newton.solver I lstsq) (S.outs (volts p)) (volts p)
        { t with queued := (j : Int) + 1 } = (t'', .ok false) := by
      unfold isTuned
      simp only
      rw [if_pos (by omega)]
      rfl
    have hrun := sourced_cycle (v := v) hp hnext hev
    have hway : Way t₀ p t'' := by
      refine ⟨?_, rfl, h.lastFailed, h.maxStep, h.maxNumber, h.lastValues⟩
      simp only [t'', h.solver]
    have hleft' : left (len x) M t'' = j + 1 := by
      unfold left
      rw [if_neg (by simp only [t'']; omega)]
    obtain ⟨K, hK, s', hs', hc⟩ := ih N p (volts (q + (M / len x) • x)) t'' (by omega) hway hleft' hRp (by
      have e : ((j + 1 + 1 : Nat) : ℝ) - 1 = ((j + 1 : Nat) : ℝ) := by push_cast; ring
      rw [e] at hinv'
      exact hinv') (by
      have := pow_le_pow_left₀ hr.le hrM 2
      push_cast at hlen
      linarith)
    refine ⟨3 + K, by omega, s', ?_, hc⟩
    rw [iterates_add _ 3 K _ _ hrun]
    exact hs'

/-- All gradients are known.  `r` is at most the maximal step size and changes no parameter by more than its tolerance. -/
theorem limited_newton_phase {S : Setup n m} (hS : S.Valid) {I : Newton.EstI X (Fin n)} {lstsq : Newton.Lstsq (Fin n)}
    (hl : Newton.LstsqSpec lstsq) {src : Volt (Fin n) → Volt (Fin n)} {R : Vec n → Prop} (hsrc : Limited src R)
    {z : Vec n} (hz : R z) (hexact : ∀ k, S.scaled k z = S.desired k) {μ : Val × Int} {r : ℝ} (hr : 0 < r)
    (hmax : ∀ M, μ.1 = some M → r ≤ M ∧ 1 ≤ μ.2)
    (htol : ∀ k tol, (S.row k).tolerance = some tol → len (fun i => S.grad k i / S.scale k) * r ≤ tol)
    {A : Fin m → X → Prop} (hA : ∀ k, Keeps S I k (A k)) :
    ∀ (N : Nat) (E : Fin m → X) (q : Vec n) (v : Volt (Fin n)) (t : OneTuner X n), (∀ k, A k (E k)) → At S μ E q t →
      R q → ¬ SetPointsMet S q → len (q - z) ^ 2 < N * r ^ 2 →
      CompletesSourced S I lstsq src true (3 * N) ⟨t, v, 0, true, none⟩ := by
  intro N
  induction N using Nat.strong_induction_on with
  | _ N ih =>
  intro E q v t hdone h hq hnot hN
  obtain ⟨x, hsug, hshift, hx, hmin⟩ := newton_suggestion hS (I := I) hl h hA hdone
  have hpy := shortest_step (A := fun y => ∀ k, S.scaled k y = S.desired k) hx hexact
    (fun a b ha hb t => exact_line hS.affine a b ha hb t) hmin
  by_cases hlong : ∃ M, μ.1 = some M ∧ M < len x
  · obtain ⟨M, hμ, hlong⟩ := hlong
    obtain ⟨hrM, hν⟩ := hmax M hμ
    have hM : 0 < M := hr.trans_le hrM
    obtain ⟨hint, hone⟩ := toInt_div hM hlong
    obtain ⟨j, hj⟩ : ∃ j : Nat, (j : Int) + 1 = min (toInt (len x / M)) μ.2 := by
      refine ⟨(min (toInt (len x / M)) μ.2 - 1).toNat, ?_⟩
      rw [hint]
      omega
    have hL : 0 < len x := hM.trans hlong
    have hjF : (j : Int) + 1 ≤ (⌊len x / M⌋₊ : Nat) := by
      rw [hj, hint]; exact min_le_left _ _
    have hjF' : j + 1 ≤ ⌊len x / M⌋₊ := by exact_mod_cast hjF
    have hjL : ((j + 1 : Nat) : ℝ) * (M / len x) ≤ 1 := by
      have h1 := Nat.floor_le (a := len x / M) (by positivity)
      have h2 : ((j + 1 : Nat) : ℝ) ≤ (⌊len x / M⌋₊ : ℝ) := by exact_mod_cast hjF'
      have h3 : ((j + 1 : Nat) : ℝ) ≤ len x / M := h2.trans h1
      rw [le_div_iff₀ hM] at h3
      rw [← mul_div_assoc, div_le_one hL]
      exact h3
    have hway : Way t q t := ⟨by
      have := h.pos
      rcases t with ⟨⟨_, _, _, _, _⟩, _, _, _, _, _, _, _, _, _⟩
      simp only at this ⊢
      rw [this], h.lastVoltage, h.lastFailed, rfl, rfl, rfl⟩
    have hleft : left (len x) M t = j + 1 := by
      unfold left
      rw [if_pos h.queued, h.maxNumber, hj]
    refine limited_way hS hsrc hz h hA hdone hM hr hrM (h.maxStep.trans hμ) hlong hshift N
      (fun N' hN' E' p v' t'' hdone' hAt hRp hnot' hlen' => ih N' hN' E' p v' t'' hdone' hAt hRp hnot' hlen')
      j N q v t le_rfl hway hleft hq ?_ hN
    have e : len (q + x - z) ^ 2 = len (q - z) ^ 2 + 2 * (∑ i, x i * (q i - z i)) + len x ^ 2 := by
      rw [len_sq, len_sq, len_sq, Finset.mul_sum, ← Finset.sum_add_distrib, ← Finset.sum_add_distrib]
      refine Finset.sum_congr rfl fun i _ => ?_
      simp only [Pi.add_apply, Pi.sub_apply]
      ring
    have h1 := mul_le_mul_of_nonneg_right hjL (sq_nonneg (len x))
    linarith
  · obtain ⟨K, rfl⟩ : ∃ K, N = K + 1 := by
      cases N with
      | zero => exfalso; have := sq_nonneg (len (q - z)); simp at hN; linarith
      | succ K => exact ⟨K, rfl⟩
    obtain ⟨t₂, hnext, hbase₂⟩ := suggestion (E' := E) (q' := q + x) h (by
      intro M hM
      rw [add_sub_cancel_left]
      by_contra hlt
      exact hlong ⟨M, hM, not_le.1 hlt⟩) hsug
    obtain ⟨p, hp, hRp, hnear⟩ := hsrc.nearest (q + x)
    have hstep : r ≤ len x := by
      by_contra hlt
      rw [not_le] at hlt
      apply hnot
      intro k tol hk
      change |S.desired k - S.scaled k q| < tol
      rw [← hx k, (Setup.scaled_affine hS.affine k).sub (q + x) q]
      have h1 := abs_product_le (fun i => S.grad k i / S.scale k) (q + x - q)
      rw [add_sub_cancel_left] at h1 ⊢
      have h2 := htol k tol hk
      have h3 := hS.tolerance k tol hk
      rcases (len_nonneg fun i => S.grad k i / S.scale k).lt_or_eq with h4 | h4
      · have := mul_lt_mul_of_pos_left hlt h4
        linarith
      · rw [← h4, zero_mul] at h1
        linarith
    rw [show 3 * (K + 1) = 3 + 3 * K by ring]
    refine sourced_cycle_or hS.toSound hp hnext hbase₂ (fun k y hy => by
      obtain ⟨e', he', -⟩ := (hA k).update _ (hdone k) p y hy
      exact ⟨e', he'⟩) (3 * K) ?_
    intro y t'' hy hnot' hAt
    refine ih K (by omega) _ p _ t'' (fun k => ?_) hAt hRp hnot' ?_
    · obtain ⟨e', he', hA'⟩ := (hA k).update _ (hdone k) p (y k) (hy k)
      rw [he']
      exact hA'
    · have h1 := pow_le_pow_left₀ (len_nonneg _) (hnear z hz) 2
      have h2 := pow_le_pow_left₀ hr.le hstep 2
      push_cast at hN
      linarith

end Qtune.EndToEnd
