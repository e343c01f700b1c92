import Verif.EndToEnd.LearningRun

/-! # Helper lemmas: Kalman estimators that are more certain than their limit demands -/

namespace Qtune.EndToEnd

open Matrix Qtune.Tuner Qtune.Gradient Qtune.Autotuner Qtune.Kalman

variable {n m : Nat}

/-- `sure_suggestion` for variances of at most `l'`, which may be less than the limit. -/
theorem bounded_suggestion {S : Setup n m} (hS : S.Valid) (hn : n ≠ 0) {μ : Val × Int} {eigh : Eigh} (heigh : EighSpec eigh)
    {nullspace : Nullspace} (hnull : NullspaceSpec nullspace) {lstsq : Newton.Lstsq (Fin n)}
    (hls : Newton.LstsqSpec lstsq) {l l' ε : ℝ} (hl' : 0 < l') (hle : l' ≤ l) {χ : Fin m → ℝ} {σ ρ : ℝ}
    (hσ : ∀ x : Fin m → ℝ, σ * len x ≤ len (comb S.slope x)) (hρ0 : 0 ≤ ρ) (hρσ : ρ < σ)
    (hρ : l' * ∑ k, χ k ≤ ρ ^ 2) {E : Fin m → Est n} {q : Vec n} {t : OneTuner (Est n) n} (h : At S μ E q t)
    (hE : Learning S l ε χ q E) (hsure : Sure l' E) :
    ∃ x : Vec n, Newton.suggest (kalmanI eigh nullspace) lstsq [] t.solver =
        ({ t.solver with ests := List.ofFn E }, .ok fun i => some (some ((q + x) i))) ∧
      len (S.miss (q + x)) ≤ ρ / (σ - ρ) * len (S.miss q) := by
  let G : Fin m → Fin n → ℝ := fun k => (E k).estimate
  have hfrob : frob (G - S.slope) ≤ ρ := by
    have h1 : frob (G - S.slope) ^ 2 ≤ ρ ^ 2 := by
      rw [frob_sq]
      refine le_trans ?_ hρ
      rw [Finset.mul_sum]
      exact Finset.sum_le_sum fun k _ => (hE k).1.close hl' (hsure k)
    exact (le_abs_self _).trans (abs_le_of_sq_le_sq h1 hρ0)
  have hτ : 0 < σ - ρ := by linarith
  have hcond := perturbed hσ hfrob
  obtain ⟨x, hsug, hxG, hxs⟩ := known_suggestion hS.toSound (I := kalmanI eigh nullspace) hls h (G := G) (fun k tj => by
    exact certain_silent (g := (E k).estimate) (hl'.trans_le hle)
      ⟨(hE k).1.static, rfl, (hE k).1.psd, (hE k).1.limit, fun v hv => (hsure k v hv).trans hle⟩ (hE k).2.measured heigh hnull hS.gates_nodup hn tj)
    (fun k => rfl) hτ hcond
  refine ⟨x, hsug, ?_⟩
  have hmiss : S.miss (q + x) = act (G - S.slope) x := by
    rw [miss_add hS, ← hxG]
    funext k
    simp only [act, Pi.sub_apply, ← Finset.sum_sub_distrib, sub_mul]
  rw [hmiss, div_mul_eq_mul_div, le_div_iff₀ hτ]
  have h1 := act_le (G - S.slope) x
  have h2 : frob (G - S.slope) * len x ≤ ρ * len x := mul_le_mul_of_nonneg_right hfrob (len_nonneg x)
  have h3 := mul_le_mul_of_nonneg_left hxs hρ0
  nlinarith [mul_le_mul_of_nonneg_right (h1.trans h2) hτ.le]

/-- `sure_phase` for variances of at most `l'`. -/
theorem bounded_phase {S : Setup n m} (hS : S.Valid) (hn : n ≠ 0) {μ : Val × Int} (hμ : μ.1 = none) {eigh : Eigh}
    (heigh : EighSpec eigh) {nullspace : Nullspace} (hnull : NullspaceSpec nullspace) {lstsq : Newton.Lstsq (Fin n)}
    (hls : Newton.LstsqSpec lstsq) {l l' ε : ℝ} (hl' : 0 < l') (hle : l' ≤ l) {χ : Fin m → ℝ} {σ ρ : ℝ}
    (hσ : ∀ x : Fin m → ℝ, σ * len x ≤ len (comb S.slope x)) (hρ0 : 0 ≤ ρ) (hρσ : ρ < σ)
    (hρ : l' * ∑ k, χ k ≤ ρ ^ 2) (hpos : ∀ k, ∀ y ∈ S.seen k, 0 < y) (N : Nat) :
    ∀ (E : Fin m → Est n) (q : Vec n) (t : OneTuner (Est n) n), At S μ E q t → Learning S l ε χ q E → Sure l' E →
      (∀ k tol, (S.row k).tolerance = some tol → (ρ / (σ - ρ)) ^ (N + 1) * len (S.miss q) < tol) →
      CompletesWithin S (kalmanI eigh nullspace) lstsq (3 * (N + 1)) ⟨t, volts q, 0, true, none⟩ := by
  have hκ : 0 ≤ ρ / (σ - ρ) := div_nonneg hρ0 (by linarith)
  induction N with
  | zero =>
    intro E q t h hE hsure htol
    obtain ⟨x, hsug, hmiss⟩ := bounded_suggestion hS hn heigh hnull hls hl' hle hσ hρ0 hρσ hρ h hE hsure
    obtain ⟨t', hnext, hbase⟩ := suggestion (E' := E) (q' := q + x) h (by rw [hμ]; simp) hsug
    refine cycle_or hS.toSound hnext hbase ?_ 0 ?_
    · intro k y hy
      obtain ⟨e', he', -⟩ := learning_update hS (eigh := eigh) (nullspace := nullspace)
        (fun k => ⟨(hE k).1, .inr (hE k).2.measured⟩) hpos (q + x) k y hy
      exact ⟨e', he'⟩
    · intro y t'' _ hnot _
      exfalso
      refine hnot (met_of_small fun k tol hk => lt_of_le_of_lt hmiss ?_)
      simpa using htol k tol hk
  | succ N ih =>
    intro E q t h hE hsure htol
    obtain ⟨x, hsug, hmiss⟩ := bounded_suggestion hS hn heigh hnull hls hl' hle hσ hρ0 hρσ hρ h hE hsure
    obtain ⟨t', hnext, hbase⟩ := suggestion (E' := E) (q' := q + x) h (by rw [hμ]; simp) hsug
    have hup := learning_update hS (eigh := eigh) (nullspace := nullspace)
      (fun k => ⟨(hE k).1, .inr (hE k).2.measured⟩) hpos (q + x)
    have := cycle_or (q := q) hS.toSound hnext hbase (fun k y hy => by
      obtain ⟨e', he', -⟩ := hup k y hy
      exact ⟨e', he'⟩) (3 * (N + 1)) (fun y t'' hy _ hAt => by
        refine ih _ _ _ hAt ?_ ?_ ?_
        · intro k
          obtain ⟨e', he', h', -⟩ := hup k (y k) (hy k)
          dsimp only
          rw [he']
          exact h'
        · intro k v hv
          obtain ⟨e', he', -, hvar, -⟩ := hup k (y k) (hy k)
          dsimp only
          rw [he']
          exact (hvar v).trans (hsure k v hv)
        · intro k tol hk
          refine lt_of_le_of_lt ?_ (htol k tol hk)
          rw [pow_succ _ (N + 1), mul_assoc]
          exact mul_le_mul_of_nonneg_left hmiss (pow_nonneg hκ _))
    obtain ⟨M, hM, hc⟩ := this
    exact ⟨M, by omega, hc⟩

end Qtune.EndToEnd
