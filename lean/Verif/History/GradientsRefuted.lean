import Verif.History.Gradients

/-! # C62: for which names `get_gradients` is wrong -/

namespace Qtune.History

/-- **C62** is false for all names: if the name of another parameter `q` ends with the name of `p`, the gradients of `q` are returned for `p`, for every history
that has them, under the names of gates that belong to the gradients of `p`. -/
theorem get_gradients_suffix_refuted {p q g : Name} (hpq : p <:+ q) (hg : GateName g) {cols : List Name} (hc : gradientName q g ∈ cols) :
    ∃ g', (g', gradientName q g) ∈ getGradients p cols := by
  have hsome : (search p (gradientName q g)).isSome := by
    unfold search
    rw [List.findSome?_isSome_iff]
    obtain ⟨pre, rfl⟩ := hpq
    refine ⟨gradientName p g, (List.mem_tails _ _).mpr ⟨pre, ?_⟩, by rw [matchAt_gradient hg]; rfl⟩
    simp [gradientName]
  obtain ⟨g', hs⟩ := Option.isSome_iff_exists.mp hsome
  refine ⟨g', ?_⟩
  unfold getGradients
  rw [List.mem_filterMap]
  exact ⟨_, hc, by rw [hs]; rfl⟩

/-- A history with the gradients of `parameter_tunnel_coupling` and a parameter `tunnel_coupling`. -/
example : ∃ g', (g', gradientName "parameter_tunnel_coupling".toList "RFA".toList) ∈
    getGradients "tunnel_coupling".toList [gradientName "parameter_tunnel_coupling".toList "RFA".toList] :=
  get_gradients_suffix_refuted ⟨"parameter_".toList, by decide⟩ ⟨by decide, by decide⟩ (by simp)

end Qtune.History
