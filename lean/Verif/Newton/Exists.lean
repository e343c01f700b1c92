import Verif.Newton.Lemmas
import Mathlib.Analysis.InnerProductSpace.PiL2
import Mathlib.Analysis.InnerProductSpace.Projection.FiniteDimensional

/-! # The assumption on `lstsq` can be met -/

namespace Qtune.Newton

variable {ι : Type} [DecidableEq ι]

/-- The shortest least squares solution exists. -/
theorem exists_isLstsq (gates : List ι) (rows : List (ι → ℝ)) (rhs : List ℝ)
    (h : rows.length = rhs.length) : ∃ x, IsLstsq gates rows rhs x := by
  obtain ⟨m, G, b, rfl, rfl⟩ : ∃ (m : Nat) (G : Fin m → ι → ℝ) (b : Fin m → ℝ),
      rows = List.ofFn G ∧ rhs = List.ofFn b :=
    ⟨rows.length, rows.get, fun k => rhs.get (k.cast h), (List.ofFn_get rows).symm, by
      apply List.ext_getElem
      · simp [h]
      · intro i h1 h2; simp⟩
  let J := {i // i ∈ gates.toFinset}
  let A : EuclideanSpace ℝ J →ₗ[ℝ] EuclideanSpace ℝ (Fin m) :=
    { toFun := fun x => WithLp.toLp 2 fun k => ∑ i : J, G k i.1 * x i
      map_add' := by
        intro x y
        ext k
        simp [mul_add, Finset.sum_add_distrib]
      map_smul' := by
        intro a x
        ext k
        simp only [PiLp.smul_apply, smul_eq_mul, RingHom.id_apply]
        rw [Finset.mul_sum]
        exact Finset.sum_congr rfl fun i _ => by ring }
  let B : EuclideanSpace ℝ (Fin m) := WithLp.toLp 2 b
  let e : (ι → ℝ) → EuclideanSpace ℝ J := fun x => WithLp.toLp 2 fun i => x i.1
  have hres : ∀ x, residual gates (List.ofFn G) (List.ofFn b) x = ‖A (e x) - B‖ ^ 2 := by
    intro x
    have hzip : (List.ofFn G).zip (List.ofFn b) = List.ofFn fun k => (G k, b k) := by
      apply List.ext_getElem
      · simp
      · intro i h1 h2; simp
    unfold residual
    rw [hzip, List.map_ofFn, List.sum_ofFn, EuclideanSpace.norm_sq_eq]
    refine Finset.sum_congr rfl fun k _ => ?_
    simp only [Function.comp_def, change_eq_sum, Real.norm_eq_abs, sq_abs]
    rfl
  have hlen : ∀ x, lengthSq gates x = ‖e x‖ ^ 2 := by
    intro x
    unfold lengthSq
    rw [← Finset.sum_coe_sort, EuclideanSpace.norm_sq_eq]
    refine Finset.sum_congr rfl fun i _ => ?_
    simp [e]
  obtain ⟨p, hp, q, hq, hB⟩ := (LinearMap.range A).exists_add_mem_mem_orthogonal B
  obtain ⟨z, rfl⟩ := hp
  obtain ⟨w, hw, x, hx, hz⟩ := (LinearMap.ker A).exists_add_mem_mem_orthogonal z
  have hAx : A x = A z := by
    rw [hz, map_add, LinearMap.mem_ker.1 hw, zero_add]
  have hpyth : ∀ y, ‖A y - B‖ ^ 2 = ‖A y - A x‖ ^ 2 + ‖q‖ ^ 2 := by
    intro y
    have hin : inner ℝ (A y - A x) q = 0 :=
      Submodule.inner_right_of_mem_orthogonal
        (Submodule.sub_mem _ (LinearMap.mem_range_self A y) (LinearMap.mem_range_self A x)) hq
    have : A y - B = (A y - A x) - q := by rw [hB, hAx]; abel
    rw [this, @norm_sub_sq ℝ, hin]
    simp
  refine ⟨fun i => if hi : i ∈ gates.toFinset then x ⟨i, hi⟩ else 0, ?_⟩
  have hex : e (fun i => if hi : i ∈ gates.toFinset then x ⟨i, hi⟩ else 0) = x := by
    ext i
    simp [e]
  refine ⟨fun y => ?_, fun y hy => ?_⟩
  · rw [hres, hres, hex, hpyth x, hpyth (e y), sub_self]
    simp
  · rw [hres, hres, hex, hpyth x, hpyth (e y), sub_self] at hy
    have h0 : ‖A (e y) - A x‖ = 0 := by
      have : ‖A (e y) - A x‖ ^ 2 = 0 := by simpa using hy
      exact pow_eq_zero_iff two_ne_zero |>.1 this
    have hker : e y - x ∈ LinearMap.ker A := by
      rw [LinearMap.mem_ker, map_sub]
      exact norm_eq_zero.1 h0
    have hin : inner ℝ (e y - x) x = 0 := Submodule.inner_right_of_mem_orthogonal hker hx
    rw [hlen, hlen, hex]
    have : e y = (e y - x) + x := by abel
    rw [this, @norm_add_sq ℝ, hin]
    simp [sq_nonneg]

/-- There is a function that computes shortest least squares solutions. -/
theorem exists_lstsq (ι : Type) [DecidableEq ι] : ∃ lstsq : Lstsq ι, LstsqSpec lstsq := by
  classical
  refine ⟨fun gates rows rhs =>
    if h : rows.length = rhs.length then
      some fun i => some ((exists_isLstsq gates (rows.map fun g i => (g i).getD 0) rhs
        (by simpa using h)).choose i)
    else none, ?_⟩
  intro gates rows rhs h
  have hmap : ((rows.map fun g i => some (g i)).map fun (g : ι → Val) i => (g i).getD 0) = rows := by
    rw [List.map_map]
    exact List.map_id rows
  have key : ∀ rows' (_ : rows' = rows) (hh : rows'.length = rhs.length),
      IsLstsq gates rows rhs (exists_isLstsq gates rows' rhs hh).choose := by
    rintro rows' rfl hh
    exact (exists_isLstsq gates rows' rhs hh).choose_spec
  exact ⟨_, dif_pos (by simpa using h), key _ hmap (by simpa using h)⟩

end Qtune.Newton
