import Verif.NelderMead.Props

/-! # C82: the point that is reflected is the worst one -/

namespace Qtune.NelderMead

open Qtune.Gradient

variable {n : Nat} {V : Type}

/-- **C82** is false in every run: when the solver reflects, there is a point `w` of the simplex that costs at least as much as each of the others, and with the
centroid `c` of the others the suggested point is not the mirror image `c + (c - w)`, but lies closer to `c`, by the factor `(n - 1) / (n + 1)`. -/
theorem mirror_image_of_worst_refuted (hn : n ≠ 0) {orth : Orth n} {cost : V → ℝ} {s : State n V} {h : List (Vec n × V)} (hr : Run orth cost s h)
    (hc : s.simplex.length = n + 1) (hp : s.phase = .startIteration ∨ s.phase = .reflect) :
    ∃ w others, s.simplex.Perm (w :: others) ∧ (∀ e ∈ others, cost e.2 ≤ cost w.2) ∧
      ∀ c : Vec n, (∀ i, c i = (others.map fun e => e.1 i).sum / n) →
        (suggest orth s).2 = .ok (c + (((n : ℝ) - 1) / (n + 1)) • (c - w.1)) ∧ (c ≠ w.1 → (suggest orth s).2 ≠ .ok (c + (c - w.1))) := by
  have hs := ((hr.inv hn).complete hc).2
  obtain ⟨w, hw⟩ := getLast?_of_pos (l := s.simplex) (by omega)
  have hsplit : s.simplex = s.simplex.dropLast ++ [w] := by
    conv_lhs => rw [← List.dropLast_append_getLast? w hw]
  refine ⟨w, s.simplex.dropLast, ?_, ?_, fun c hcen => mirror_image_refuted hn hc hp w hw c (funext hcen)⟩
  · conv_lhs => rw [hsplit]
    exact List.perm_append_singleton _ _
  · intro e he
    rw [hsplit] at hs
    exact (List.pairwise_append.1 hs).2.2 e he w (by simp)

end Qtune.NelderMead
