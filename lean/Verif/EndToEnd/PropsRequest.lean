import Verif.EndToEnd.Kalman

/-! # Requests with different step widths change parameters that are tuned -/

namespace Qtune.EndToEnd

open Matrix Qtune.Tuner Qtune.Kalman

/-- **C105** is false for different entries of `epsilon`, for every gradient of a tuned parameter on two gates
that depends on both, and every pair of different step widths.  Two parameters as in the tutorial: `a` is tuned by
a lower tuner and has no set point in this solver, the gradient of `b` is uncertain.  After any evaluation the solver
suggests a displacement that changes `a` to first order. -/
theorem request_keeps_tuned_parameters_refuted {eigh : Eigh} {nullspace : Nullspace} (hn : NullspaceSpec nullspace)
    (lstsq : Newton.Lstsq (Fin 2)) (g eps v : Fin 2 → ℝ) (hg : ∀ i, g i ≠ 0) (heps : eps 0 ≠ eps 1)
    (desired xa xb ya yb : ℝ) :
    ∃ (s s' s'' : Newton.State (Est 2) (Fin 2)) (ea eb : Est 2) (d : Fin 2 → ℝ),
      s.target = [Newton.plainRow "a" none, Newton.plainRow "b" (some desired)] ∧ s.ests = [ea, eb] ∧
      s.gates = [0, 1] ∧ ea.estimate = g ∧ eb.eps = eps ∧ eb.cov.PosDef ∧
      Newton.update (kalmanI eigh nullspace) (fun i => some (v i)) [("a", some xa), ("b", some xb)]
        [("a", some ya), ("b", some yb)] s = (s', .ok ()) ∧
      Newton.suggest (kalmanI eigh nullspace) lstsq ["a"] s' = (s'', .ok fun i => some (some (v i + d i))) ∧
      Newton.change s.gates g d ≠ 0 := by
  let ea : Est 2 := ⟨KG.new none (some fun j => g (Fin.cast (by norm_num) j)) none none none 1, fun _ => none, none,
    fun _ => .fin 1, eps⟩
  let f : KG 1 2 := KG.new none none (some ((2 : ℝ) • 1)) none none 1
  let eb : Est 2 := ⟨f, fun _ => none, none, fun _ => .fin 1, eps⟩
  let eb' : Est 2 := Est.new f v (some xb) (fun _ => .fin 1) eps
  let s : Newton.State (Est 2) (Fin 2) :=
    ⟨[Newton.plainRow "a" none, Newton.plainRow "b" (some desired)], [ea, eb], [0, 1], fun _ => none,
      [("a", none), ("b", none)]⟩
  let s' : Newton.State (Est 2) (Fin 2) :=
    { s with ests := [ea, eb'], pos := fun i => some (v i), values := [("a", some xa), ("b", some xb)] }
  have hup : Newton.update (kalmanI eigh nullspace) (fun i => some (v i)) [("a", some xa), ("b", some xb)]
      [("a", some ya), ("b", some yb)] s = (s', .ok ()) := by
    simp [Newton.update, Series.select, Series.index, Series.val, List.lookup, Newton.feed, Target.row?,
      Newton.plainRow, s, s', kalmanI, Est.update, eb, eb', Est.new]
  have hea : ea.estimate = g := by
    funext i
    simp [ea, Est.estimate, KG.grad, KG.new]
  let J : Matrix (Fin 1) (Fin 2) ℝ := Matrix.of fun _ i => g i
  have hcov : ∀ w : Fin 2 → ℝ, variance eb'.cov w = 2 * ∑ i, w i ^ 2 := by
    intro w
    simp [variance, Est.cov, Est.new, f, eb', KG.new, Fin.sum_univ_two, one_apply]
    ring
  have hne : directions nullspace id J ≠ [] := by
    intro h
    unfold directions at h
    rw [List.map_eq_nil_iff, List.map_eq_nil_iff] at h
    obtain ⟨free, -, -, h3⟩ := hn 1 2 J
    have := h3 ![g 1, - g 0] (by
      ext i
      simp [J, mulVec, dotProduct, Fin.sum_univ_two]
      ring)
    have h0 := congrFun this 0
    rw [Finset.sum_apply, Finset.sum_eq_zero] at h0
    · exact hg 1 (by simpa using h0)
    · intro a _
      have h1 := a.2
      have h2 : (nullspace 1 2 J).length = 0 := by rw [h]; rfl
      omega
  obtain ⟨v₀, hv₀⟩ := List.exists_mem_of_ne_nil _ hne
  obtain ⟨w, hw, hr⟩ : ∃ w : Fin 2 → ℝ, UnitNull id J w ∧
      eb'.requireTuned nullspace id J = some (displaced v fun i => eps i * w i) := by
    cases hr : eb'.requireTuned nullspace id J with
    | none =>
      exfalso
      rw [requireTuned_eq _ _ _ _ _ _ _ _ (by norm_num)] at hr
      dsimp only at hr
      rw [if_pos ⟨v₀, hv₀, by
        rw [show Est.new f v (some xb) (fun _ => .fin 1) eps = eb' from rfl, hcov,
          (directions_unitNull hn Function.injective_id hv₀).unit]; norm_num⟩] at hr
      split at hr
      · rename_i harg
        rw [List.argmax_eq_none] at harg
        exact hne harg
      · cases hr
    | some q =>
      obtain ⟨w, hw, -, rfl⟩ := tuned_request_sound hn Function.injective_id J f _ _ _ _ hr
      exact ⟨w, hw, rfl⟩
  have htj : Newton.tunedJacobian (kalmanI eigh nullspace) ["a"] s' = .ok (some [fun i => some (ea.estimate i)]) := by
    simp [Newton.tunedJacobian, Newton.concat, s', s, kalmanI, Newton.plainRow]
  have hr' : eb'.requireTuned nullspace s'.gates.get
      (Matrix.of fun (k : Fin [fun i => some (ea.estimate i)].length) a =>
        ([fun i => some (ea.estimate i)].get k (s'.gates.get a)).getD 0) =
      some (displaced v fun i => eps i * w i) := by
    have h1 : (s'.gates.get : Fin 2 → Fin 2) = id := by
      funext i; fin_cases i <;> rfl
    have h2 : (Matrix.of fun (k : Fin 1) (a : Fin 2) =>
        ([fun i => some (ea.estimate i)].get k (s'.gates.get a)).getD 0) = J := by
      ext k a
      obtain rfl : k = 0 := Subsingleton.elim _ _
      rw [hea]
      fin_cases a <;> simp [J, s', s]
    calc _ = eb'.requireTuned nullspace (s'.gates.get : Fin 2 → Fin 2) J := by rw [← h2]; rfl
      _ = _ := by rw [h1]; exact hr
  refine ⟨s, s', s', ea, eb, fun i => eps i * w i, rfl, rfl, rfl, hea, rfl, ?_, hup, ?_, ?_⟩
  · have h : eb.cov = (2 : ℝ) • 1 := by
      ext i j
      simp [eb, Est.cov, f, KG.new]
    rw [h]
    exact PosDef.one.smul (by norm_num)
  · have hask := Newton.requests_have_priority (kalmanI eigh nullspace) lstsq ["a"] s' _ htj
      [(Newton.plainRow "a" none, ea)] [] (Newton.plainRow "b" (some desired)) eb' rfl
      (by simp [Newton.plainRow]) (by simp [Newton.plainRow]) (fun i => some (some (v i + eps i * w i))) (by
        show Except.ok (Option.map _ _) = _
        rw [hr']
        rfl) ⟨0, by simp⟩
    rw [hask]
    rfl
  · intro h
    have h1 : g 0 * (eps 0 * w 0) + g 1 * (eps 1 * w 1) = 0 := by
      simpa [Newton.change, s] using h
    have h2 : g 0 * w 0 + g 1 * w 1 = 0 := by
      have := congrFun hw.null 0
      simpa [J, mulVec, dotProduct, Fin.sum_univ_two] using this
    have h3 : (eps 0 - eps 1) * (g 0 * w 0) = 0 := by linear_combination h1 - eps 1 * h2
    have h4 : g 0 * w 0 = 0 := (mul_eq_zero.1 h3).resolve_left (sub_ne_zero.2 heps)
    have h5 : w 0 = 0 := (mul_eq_zero.1 h4).resolve_left (hg 0)
    have h6 : w 1 = 0 := by
      rw [h4, zero_add] at h2
      exact (mul_eq_zero.1 h2).resolve_left (hg 1)
    have h7 := hw.unit
    simp [Fin.sum_univ_two, h5, h6] at h7

/-- A case: the tuned parameter has the gradient `(3, -1)`, the step widths are 1 and 2. -/
example : ∃ (eigh : Eigh) (nullspace : Nullspace) (lstsq : Newton.Lstsq (Fin 2)), NullspaceSpec nullspace ∧
    ∃ (s s' s'' : Newton.State (Est 2) (Fin 2)) (ea eb : Est 2) (d : Fin 2 → ℝ), s.ests = [ea, eb] ∧
      ea.estimate = ![3, -1] ∧ eb.eps = ![1, 2] ∧
      Newton.update (kalmanI eigh nullspace) (fun i => some ((![5, 6] : Fin 2 → ℝ) i)) [("a", some 0), ("b", some 7)]
        [("a", some 1), ("b", some 1)] s = (s', .ok ()) ∧
      Newton.suggest (kalmanI eigh nullspace) lstsq ["a"] s' =
        (s'', .ok fun i => some (some ((![5, 6] : Fin 2 → ℝ) i + d i))) ∧
      Newton.change s.gates ![3, -1] d ≠ 0 := by
  obtain ⟨nullspace, hn⟩ := exists_nullspace
  obtain ⟨s, s', s'', ea, eb, d, -, h1, -, h2, h3, -, h4, h5, h6⟩ :=
    request_keeps_tuned_parameters_refuted (eigh := fun _ _ => (0, 0)) hn (fun _ _ _ => none)
      ![3, -1] ![1, 2] ![5, 6] (by intro i; fin_cases i <;> simp) (by simp) 8 0 7 1 1
  exact ⟨_, _, _, hn, s, s', s'', ea, eb, d, h1, h2, h3, h4, h5, h6⟩

end Qtune.EndToEnd
