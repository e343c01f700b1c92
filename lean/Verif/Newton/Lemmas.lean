import Verif.Newton.Spec

/-! # Helper lemmas for the Newton step -/

namespace Qtune.Newton

variable {E ι : Type} [DecidableEq ι]

theorem change_eq_sum (gates : List ι) (g x : ι → ℝ) :
    change gates g x = ∑ i : {i // i ∈ gates.toFinset}, g i * x i := by
  unfold change
  rw [← Finset.sum_coe_sort]

/-- A system of full row rank can be solved. -/
theorem exists_solution {m : Nat} (gates : List ι) (G : Fin m → ι → ℝ)
    (h : FullRowRank gates G) (b : Fin m → ℝ) : ∃ y : ι → ℝ, ∀ k, change gates (G k) y = b k := by
  let J := {i // i ∈ gates.toFinset}
  let M : Matrix (Fin m) J ℝ := Matrix.of fun k i => G k i.1
  have hli : LinearIndependent ℝ M.row := by
    have hinj : Function.Injective (fun (w : {i // i ∈ gates} → ℝ) (i : J) =>
        w ⟨i.1, List.mem_toFinset.1 i.2⟩) := by
      intro w w' hw
      funext i
      exact congrFun hw ⟨i.1, List.mem_toFinset.2 i.2⟩
    let L : ({i // i ∈ gates} → ℝ) →ₗ[ℝ] (J → ℝ) :=
      { toFun := fun w i => w ⟨i.1, List.mem_toFinset.1 i.2⟩
        map_add' := fun _ _ => rfl
        map_smul' := fun _ _ => rfl }
    exact h.map' L (LinearMap.ker_eq_bot.2 hinj)
  have hrank : M.rank = m := by
    have := hli.rank_matrix
    simpa using this
  have hsurj : Function.Surjective M.mulVecLin := by
    rw [← LinearMap.range_eq_top]
    apply Submodule.eq_top_of_finrank_eq
    rw [← Matrix.rank, hrank]
    simp
  obtain ⟨w, hw⟩ := hsurj b
  refine ⟨fun i => if hi : i ∈ gates.toFinset then w ⟨i, hi⟩ else 0, fun k => ?_⟩
  rw [change_eq_sum, ← congrFun hw k, Matrix.mulVecLin_apply, Matrix.mulVec, dotProduct]
  refine Finset.sum_congr rfl fun i _ => ?_
  rw [dif_pos i.2]
  rfl

theorem sum_sq_eq_zero_iff (l : List ℝ) : (l.map fun x => x ^ 2).sum = 0 ↔ ∀ x ∈ l, x = 0 := by
  induction l with
  | nil => simp
  | cons a l ih =>
    have hl : 0 ≤ (l.map fun x => x ^ 2).sum := by
      apply List.sum_nonneg
      intro x hx
      obtain ⟨y, -, rfl⟩ := List.mem_map.1 hx
      positivity
    simp only [List.map_cons, List.sum_cons, List.mem_cons, forall_eq_or_imp]
    constructor
    · intro h
      have ha : a ^ 2 = 0 := by nlinarith [sq_nonneg a]
      exact ⟨pow_eq_zero_iff two_ne_zero |>.1 ha, ih.1 (by linarith [sq_nonneg a])⟩
    · rintro ⟨rfl, h⟩
      simp [ih.2 h]

theorem residual_eq_zero_iff {m : Nat} (gates : List ι) (G : Fin m → ι → ℝ) (b : Fin m → ℝ)
    (x : ι → ℝ) : residual gates (List.ofFn G) (List.ofFn b) x = 0 ↔
      ∀ k, change gates (G k) x = b k := by
  have hzip : (List.ofFn G).zip (List.ofFn b) = List.ofFn fun k => (G k, b k) := by
    apply List.ext_getElem
    · simp
    · intro i h1 h2; simp
  unfold residual
  rw [hzip, List.map_ofFn]
  have := sum_sq_eq_zero_iff (List.ofFn fun k => change gates (G k) x - b k)
  rw [List.map_ofFn] at this
  simp only [Function.comp_def] at this ⊢
  rw [this]
  simp only [List.mem_ofFn', Set.mem_range, forall_exists_index, forall_apply_eq_imp_iff, sub_eq_zero]

theorem residual_nonneg (gates : List ι) (rows : List (ι → ℝ)) (rhs : List ℝ) (x : ι → ℝ) :
    0 ≤ residual gates rows rhs x := by
  apply List.sum_nonneg
  intro y hy
  obtain ⟨z, -, rfl⟩ := List.mem_map.1 hy
  positivity

/-- With full row rank the least squares solution solves the system and is the shortest solution. -/
theorem IsLstsq.solves {m : Nat} {gates : List ι} {G : Fin m → ι → ℝ}
    (h : FullRowRank gates G) {b : Fin m → ℝ} {x : ι → ℝ}
    (hx : IsLstsq gates (List.ofFn G) (List.ofFn b) x) :
    (∀ k, change gates (G k) x = b k) ∧
    ∀ y, (∀ k, change gates (G k) y = b k) → lengthSq gates x ≤ lengthSq gates y := by
  obtain ⟨y₀, hy₀⟩ := exists_solution gates G h b
  have h0 := (residual_eq_zero_iff gates G b y₀).2 hy₀
  have hx0 : residual gates (List.ofFn G) (List.ofFn b) x = 0 :=
    le_antisymm (h0 ▸ hx.least y₀) (residual_nonneg _ _ _ _)
  refine ⟨(residual_eq_zero_iff gates G b x).1 hx0, fun y hy => hx.shortest y ?_⟩
  rw [hx0, (residual_eq_zero_iff gates G b y).2 hy]

omit [DecidableEq ι] in
theorem concat_some (rows : List (ι → Val)) (hne : rows ≠ []) :
    concat (rows.map some) = .ok rows := by
  unfold concat
  have : (rows.map some).filterMap id = rows := by
    induction rows with
    | nil => rfl
    | cons a l ih =>
      by_cases hl : l = []
      · subst hl; rfl
      · simpa using ih hl
  rw [this]
  split
  · exact absurd rfl hne
  · rfl

omit [DecidableEq ι] in
/-- The loop when nobody requests anything. -/
theorem ask_none (I : EstI E ι) (gates : List ι) (tj : Option (List (ι → Val))) (res : List (Row × E))
    (h : ∀ re ∈ res, re.1.desired ≠ none → I.require gates tj re.2 = (re.2, .ok none)) :
    ask I gates tj res = (res.map Prod.snd, .ok none) := by
  induction res with
  | nil => rfl
  | cons re rest ih =>
    obtain ⟨r, e⟩ := re
    have hrest := ih fun re hre => h re (List.mem_cons_of_mem _ hre)
    unfold ask
    by_cases hd : r.desired.isNone
    · rw [if_pos hd, hrest]
      rfl
    · rw [if_neg hd]
      have := h (r, e) List.mem_cons_self (by simpa using hd)
      simp only at this
      rw [this, hrest]
      rfl

omit [DecidableEq ι] in
theorem tunedJacobian_ok (I : EstI E ι) (tuned : List String) (s : State E ι)
    (h : ∀ e ∈ s.ests, I.estimate e ≠ none) : ∃ tj, tunedJacobian I tuned s = .ok tj := by
  unfold tunedJacobian
  split
  · exact ⟨_, rfl⟩
  · rename_i ests hne
    have hex : ∃ rows : List (ι → Val), (((s.target.zip s.ests).filter
        fun re => tuned.contains re.1.name).map fun re => I.estimate re.2) = rows.map some := by
      refine ⟨((s.target.zip s.ests).filter fun re => tuned.contains re.1.name).map fun re =>
        (I.estimate re.2).getD fun _ => none, ?_⟩
      rw [List.map_map]
      apply List.map_congr_left
      intro re hre
      have hmem : re.2 ∈ s.ests := (List.of_mem_zip (List.mem_filter.1 hre).1).2
      obtain ⟨g, hg⟩ := Option.ne_none_iff_exists'.1 (h _ hmem)
      simp [hg]
    obtain ⟨rows, hrows⟩ := hex
    rw [hrows, concat_some rows (by
      rintro rfl
      simp only [List.map_nil, List.map_eq_nil_iff] at hrows
      exact hne hrows)]
    exact ⟨_, rfl⟩

end Qtune.Newton
