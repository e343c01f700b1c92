import Verif.EndToEnd.Cycles
import Verif.EndToEnd.Contraction

/-! # Newton steps with estimated gradients -/

namespace Qtune.EndToEnd

open Qtune.Tuner Qtune.Gradient Qtune.Autotuner

variable {n m : Nat} {X : Type}

/-- The gradients in units of the target. -/
noncomputable def Setup.slope (S : Setup n m) : Fin m → Vec n := fun k i => S.grad k i / S.scale k

/-- What is missing to the set points. -/
noncomputable def Setup.miss (S : Setup n m) (q : Vec n) : Fin m → ℝ :=
  fun k => S.desired k - S.response k q / S.scale k

/-- Nobody requests anything: the suggestion is the shortest step to the set points according to the estimates
`G`. -/
theorem known_suggestion {S : Setup n m} (hS : S.Sound) {μ : Val × Int} {I : Newton.EstI X (Fin n)}
    {lstsq : Newton.Lstsq (Fin n)} (hls : Newton.LstsqSpec lstsq) {E : Fin m → X} {q : Vec n} {t : OneTuner X n}
    (h : At S μ E q t) {G : Fin m → Vec n} (hsilent : ∀ k tj, I.require S.gates tj (E k) = (E k, .ok none))
    (hG : ∀ k, I.estimate (E k) = some fun i => some (G k i)) {τ : ℝ} (hτ : 0 < τ)
    (hcond : ∀ x, τ * len x ≤ len (comb G x)) :
    ∃ x : Vec n, Newton.suggest I lstsq [] t.solver =
        ({ t.solver with ests := List.ofFn E }, .ok fun i => some (some ((q + x) i))) ∧
      act G x = S.miss q ∧ τ * len x ≤ len (S.miss q) := by
  have hready : Newton.Ready I t.solver q G := by
    refine ⟨by rw [h.target]; simp [Setup.target], h.pos, ?_, ?_, ?_⟩
    · intro re hre _ tj
      have hmem := (List.of_mem_zip hre).2
      rw [h.ests] at hmem
      obtain ⟨k, hk⟩ := (List.mem_ofFn' _ _).1 hmem
      rw [← hk, h.gates]
      exact hsilent k tj
    · rw [h.ests, List.map_ofFn]
      congr 1
      funext k
      exact hG k
    · unfold Newton.FullRowRank
      rw [h.gates]
      let L : (Fin n → ℝ) →ₗ[ℝ] ({i // i ∈ S.gates} → ℝ) :=
        { toFun := fun w i => w i.1
          map_add' := fun _ _ => rfl
          map_smul' := fun _ _ => rfl }
      refine (rows_independent hτ hcond).map' L (LinearMap.ker_eq_bot.2 ?_)
      intro w w' hw
      funext i
      exact congrFun hw ⟨i, hS.gates_all i⟩
  obtain ⟨x, hsug, hx, hshort⟩ := Newton.newton_step_meets_set_points hls hready hS.nonempty []
    (fun k => S.scaled k q) S.desired (by
      intro k r hr
      have : r = S.row k := by
        have hr' : t.solver.target[k.1]? = some r := hr
        rw [h.target] at hr'
        simp [Setup.target] at hr'
        exact hr'.symm
      subst this
      refine ⟨hS.desired k, ?_⟩
      rw [h.values]
      exact Setup.val_ofFn hS (fun k => some (S.scaled k q)) k)
  have hgates : t.solver.gates.toFinset = Finset.univ := by
    rw [h.gates]
    ext i
    simp [hS.gates_all i]
  have hchange : ∀ k (z : Vec n), Newton.change t.solver.gates (G k) z = act G z k := by
    intro k z
    unfold Newton.change
    rw [hgates]
    rfl
  have hxG : act G x = S.miss q := by
    funext k
    have := hx k
    rw [hchange] at this
    simp only [Setup.miss, ← Setup.scaled_eq]
    linarith
  refine ⟨x, ?_, hxG, ?_⟩
  · rw [hsug]
    congr 1
    · have := h.ests
      rcases t with ⟨⟨T, es, gs, ps, vs⟩, _, _, _, _, _, _, _, _, _⟩
      simp only at this ⊢
      rw [this]
    · congr 1
      funext i
      rw [if_pos (by rw [h.gates]; exact hS.gates_all i)]
      rfl
  · obtain ⟨s, hs, hslen⟩ := short_solution hτ hcond (S.miss q)
    have hxs : len x ≤ len s := by
      have := hshort s fun k => by
        rw [hchange, hs]
        simp only [Setup.miss, ← Setup.scaled_eq]
        ring
      unfold Newton.lengthSq at this
      rw [hgates] at this
      exact Real.sqrt_le_sqrt this
    exact (mul_le_mul_of_nonneg_left hxs hτ.le).trans hslen

/-- The set points are met once little enough is missing. -/
theorem met_of_small {S : Setup n m} {q : Vec n}
    (h : ∀ k tol, (S.row k).tolerance = some tol → len (S.miss q) < tol) : SetPointsMet S q :=
  fun k tol htol => lt_of_le_of_lt (abs_le_len (S.miss q) k) (h k tol htol)

end Qtune.EndToEnd
