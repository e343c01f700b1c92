import Verif.Kalman.EstimatorProps

/-! # Properties of the Kalman estimator: reference point, reloading, infinite limits -/

namespace Qtune.Kalman

open Matrix

variable {n m : Nat}

theorem calls_append (cs : List (Call m n)) (c : Call m n) (f : KG m n) :
    calls (cs ++ [c]) f = ((calls cs f).update c.diff c.values c.R c.Q c.predict).1 := by
  induction cs generalizing f with
  | nil => rfl
  | cons d cs ih => exact ih _

theorem scalar_posDef {c : ℝ} (h : 0 < c) : (c • (1 : Matrix (Fin 1) (Fin 1) ℝ)).PosDef := PosDef.one.smul h

/-- A measurement with positive variance is accepted, and the covariance stays positive semidefinite. -/
theorem feed_ok (f : KG 1 n) (hP : f.P.PosSemidef) (hQ : f.Q.PosSemidef) (d : Fin n → ℝ) (z : Fin 1 → ℝ)
    {c : ℝ} (hc : 0 < c) :
    (f.update d z (some (c • 1)) none true).2 = .ok () ∧
    (f.update d z (some (c • 1)) none true).1.P.PosSemidef ∧
    (f.update d z (some (c • 1)) none true).1.Q.PosSemidef := by
  have hP' : (f.predict none).P.PosSemidef := predict_posSemidef hP hQ
  have hu : f.update d z (some (c • 1)) none true = (f.predict none).correct z (some (c • 1)) (matrixH 1 d) := rfl
  rw [hu]
  refine ⟨?_, correct_posSemidef hP' (R := some (c • 1)) (scalar_posDef hc).posSemidef _ _, ?_⟩
  · rw [correct_ok hP' (R := some (c • 1)) (scalar_posDef hc)]
  · rw [(correct_keeps _ _ _ _).2.1]
    exact hQ

/-- **C49**.  For every history of updates with positive variances and restarts, no exception is raised,
the filter has received exactly the differences to the reference point (see `reference` and `fed`), and
the estimator holds that reference point. -/
theorem kalman_reference (f : KG 1 n) (hP : f.P.PosSemidef) (hQ : f.Q.PosSemidef) (p : Fin n → ℝ)
    (value : Option ℝ) (maxCov : Fin n → Limit) (eps : Fin n → ℝ) (history : List (Event n))
    (hcov : ∀ q v c b, Event.update q v c b ∈ history → 0 < c) :
    ∃ e', (Est.new f p value maxCov eps).after history = .ok e' ∧
      e'.filter = calls (fed (value.map (p, ·)) history) f ∧
      e'.value = (reference (value.map (p, ·)) history).map Prod.snd ∧
      ∀ q v, reference (value.map (p, ·)) history = some (q, v) → e'.pos = fun i => some (q i) := by
  suffices h : ∃ e', (Est.new f p value maxCov eps).after history = .ok e' ∧
      e'.filter = calls (fed (value.map (p, ·)) history) f ∧
      e'.value = (reference (value.map (p, ·)) history).map Prod.snd ∧
      (∀ q v, reference (value.map (p, ·)) history = some (q, v) → e'.pos = fun i => some (q i)) ∧
      e'.filter.P.PosSemidef ∧ e'.filter.Q.PosSemidef by
    obtain ⟨e', h1, h2, h3, h4, -, -⟩ := h
    exact ⟨e', h1, h2, h3, h4⟩
  induction history with
  | nil =>
    refine ⟨_, rfl, rfl, ?_, ?_, hP, hQ⟩
    · cases value <;> rfl
    · intro q v h
      cases value with
      | none => cases h
      | some v' => cases h; rfl
  | cons ev past ih =>
    obtain ⟨e', h1, h2, h3, h4, h5, h6⟩ := ih fun q v c b h => hcov q v c b (List.mem_cons_of_mem _ h)
    cases ev with
    | restart q =>
      refine ⟨e'.restart fun i => some (q i), ?_, h2, rfl, ?_, h5, h6⟩
      · simp only [Est.after, h1]
      · intro q v h
        cases h
    | update q v c b =>
      have hc := hcov q v c b (by simp)
      simp only [Est.after, h1]
      cases href : reference (value.map (p, ·)) past with
      | none =>
        rw [href] at h3
        have hup : e'.update (fun i => some (q i)) v c b =
            ({ e' with value := some v, pos := fun i => some (q i) }, .ok ()) := by
          unfold Est.update
          rw [show e'.value = none from h3]
        rw [hup]
        refine ⟨_, rfl, ?_, ?_, ?_, h5, h6⟩
        · simp only [fed, href, h2]
        · simp only [reference, href]
          rfl
        · intro q' v' h
          simp only [reference, href] at h
          cases h
          rfl
      | some ref =>
        obtain ⟨p₀, v₀⟩ := ref
        rw [href] at h3
        have hpos := h4 p₀ v₀ href
        have hdiff : ∀ i, Val.sub (some (q i)) (e'.pos i) = some (q i - p₀ i) := by
          intro i
          rw [hpos]
          rfl
        have hv : e'.value = some v₀ := h3
        unfold Est.update
        simp only [hv, hdiff, Option.getD_some]
        by_cases hshort : Real.sqrt (∑ i, (q i - p₀ i) ^ 2) < 1 / 10000000
        · rw [if_pos hshort]
          refine ⟨_, rfl, ?_, ?_, ?_, ?_⟩
          · simp only [fed, href]
            rw [if_neg (not_le.2 hshort), ← h2]
            split <;> rfl
          · simp only [reference, href]
            cases b
            · simpa using hv
            · rfl
          · intro q' v' h
            simp only [reference, href] at h
            cases b
            · simp at h
              obtain ⟨rfl, rfl⟩ := h
              simpa using hpos
            · simp at h
              obtain ⟨rfl, rfl⟩ := h
              rfl
          · cases b
            · exact ⟨h5, h6⟩
            · exact ⟨h5, h6⟩
        · rw [if_neg hshort, if_neg (by simp)]
          obtain ⟨hok, hP', hQ'⟩ := feed_ok e'.filter h5 h6 (fun i => q i - p₀ i) (fun _ => v - v₀) hc
          generalize hupd : e'.filter.update (fun i => q i - p₀ i) (fun _ => v - v₀) (some (c • 1)) none true
            = res at hok hP' hQ'
          obtain ⟨f', r⟩ := res
          simp only at hok
          subst hok
          refine ⟨_, rfl, ?_, ?_, ?_, ?_⟩
          · simp only [fed, href]
            rw [if_pos (not_lt.1 hshort), calls_append, ← h2]
            simp only [hupd]
            split <;> rfl
          · simp only [reference, href]
            cases b
            · simpa using hv
            · rfl
          · intro q' v' h
            simp only [reference, href] at h
            cases b
            · simp at h
              obtain ⟨rfl, rfl⟩ := h
              simpa using hpos
            · simp at h
              obtain ⟨rfl, rfl⟩ := h
              rfl
          · cases b
            · exact ⟨hP', hQ'⟩
            · exact ⟨hP', hQ'⟩

/-- A history with a restart in which one difference enters the filter: 1 at the position 1 after the
reference 5 at the position 0 was set by the first update after the restart. -/
example : fed (n := 1) (some (0, 2))
    [.update (fun _ => 1) 6 1 true, .update 0 5 1 false, .restart 0] =
    [⟨fun _ => 1, fun _ => 1, some ((1 : ℝ) • 1), none, true⟩] := by
  simp only [fed, reference]
  norm_num

/-- **C86**.  A Kalman filter and a Kalman estimator that are rebuilt from their stored attributes are
identical to the original. -/
theorem kalman_reload (f : KG m n) (e : Est n) : f.reload = f ∧ e.reload = e := by
  have h : ∀ {m n : Nat} (f : KG m n), f.reload = f := by
    intro m n f
    have := flat_grad f
    unfold flat at this
    unfold KG.reload KG.new
    cases f
    simp only [Option.getD_some]
    congr 1
  refine ⟨h f, ?_⟩
  unfold Est.reload
  rw [h]

/-- **C85** is false: `change_position` keeps the old value, so that the next difference of values does not
belong to the difference of positions.  The response is the identity, the estimate is exactly its
gradient 1, all measurements are exact, and the estimate moves to 3/2. -/
theorem change_position_refuted :
    ∃ e : Est 1, e.pos = (fun _ => some 0) ∧ e.value = some 0 ∧ e.estimate = (fun _ => 1) ∧
      e.filter.P = 1 ∧
      ((e.changePosition fun _ => some 1).update (fun _ => some 2) 2 1 true).2 = .ok () ∧
      ((e.changePosition fun _ => some 1).update (fun _ => some 2) 2 1 true).1.estimate = fun _ => 3 / 2 := by
  let f : KG 1 1 := KG.new none (some fun _ => 1) none none none 1
  let e : Est 1 := Est.new f 0 (some 0) (fun _ => .fin 1) 1
  have hpred : f.predict none = f := by
    unfold Filter.predict
    simp [f, KG.new]
  have hf : f.update (fun _ => 1) (fun _ => 2) (some ((1 : ℝ) • 1)) none true =
      f.correct (fun _ => 2) (some ((1 : ℝ) • 1)) (matrixH 1 fun _ => 1) := by
    show (f.predict none).correct _ _ _ = _
    rw [hpred]
  have hP : f.P.PosSemidef := PosSemidef.one
  have hH : matrixH 1 (fun _ : Fin 1 => (1 : ℝ)) = Matrix.of fun _ _ => 1 := by
    ext i j
    unfold matrixH
    have := j.2
    simp
  have hS : f.innovation ((1 : ℝ) • 1) (matrixH 1 fun _ => 1) = Matrix.of fun _ _ => 2 := by
    ext i j
    fin_cases i; fin_cases j
    rw [hH]
    unfold Filter.innovation
    simp [f, KG.new, mul_apply]
    norm_num
  have hSinv : (Matrix.of fun _ _ => 2 : Matrix (Fin 1) (Fin 1) ℝ)⁻¹ = Matrix.of fun _ _ => 1 / 2 := by
    apply inv_eq_right_inv
    ext i j
    fin_cases i; fin_cases j
    simp [mul_apply]
  rw [correct_ok hP (R := some ((1 : ℝ) • 1)) (scalar_posDef one_pos)] at hf
  have hu : ∃ e', (e.changePosition fun _ => some 1).update (fun _ => some 2) 2 1 true = (e', .ok ()) ∧
      e'.filter.x = f.x + f.gain ((1 : ℝ) • 1) (matrixH 1 fun _ => 1) *ᵥ
        ((fun _ => 2) - (matrixH 1 fun _ => 1) *ᵥ f.x) := by
    have hdiff : ∀ i : Fin 1, Val.sub (some 2) ((e.changePosition fun _ => some 1).pos i) = some 1 := by
      intro i
      show Val.sub (some 2) (some 1) = _
      rw [Val.sub_some]
      norm_num
    unfold Est.update
    simp only [hdiff, show (e.changePosition fun _ => some 1).value = some 0 from rfl, Option.getD_some]
    rw [if_neg (by norm_num), if_neg (by simp)]
    simp only [sub_zero, if_true, show (e.changePosition fun _ => some 1).filter = f from rfl, hf]
    exact ⟨_, rfl, rfl⟩
  obtain ⟨e', hu, hx⟩ := hu
  refine ⟨e, rfl, rfl, ?_, rfl, ?_, ?_⟩
  · funext i
    rfl
  · rw [hu]
  · rw [hu]
    funext i
    unfold Est.estimate KG.grad
    simp only [hx, Filter.gain, hS, hSinv]
    rw [hH]
    fin_cases i
    simp [f, KG.new, mulVec, dotProduct, mul_apply]
    norm_num

/-- The two outcomes of a request. -/
theorem require_cases (eigh : Eigh) (gates : List (Fin n)) (e : Est n)
    (w : Fin gates.length → ℝ) (V : Matrix (Fin gates.length) (Fin gates.length) ℝ)
    (hw : w = (eigh gates.length fun a b => e.cov (gates.get a) (gates.get b)).1)
    (hV : V = (eigh gates.length fun a b => e.cov (gates.get a) (gates.get b)).2)
    (L : Fin gates.length → ℝ)
    (hL : ∀ j, L j = Real.sqrt (∑ a, ((e.maxCov (gates.get a)).under (w j * V a j)) ^ 2)) :
    ((∀ j, L j ≤ 1) ∧ e.require eigh gates = none) ∨
    ∃ j, 1 < L j ∧ (∀ i, L i ≤ L j) ∧
      e.require eigh gates = some (addFill e.pos fun i => (position gates i).map fun a => e.eps i * V a j) := by
  unfold Est.require
  dsimp only
  rw [← hw, ← hV]
  simp only [← hL]
  by_cases h : ∃ j, L j > 1
  · right
    rw [if_pos h]
    split
    · rename_i harg
      rw [List.argmax_eq_none] at harg
      obtain ⟨j, -⟩ := h
      exact absurd (List.mem_finRange j) (by rw [harg]; simp)
    · rename_i j harg
      have hmax : ∀ i, L i ≤ L j := fun i => List.le_of_mem_argmax (List.mem_finRange i) harg
      obtain ⟨i, hi⟩ := h
      exact ⟨j, lt_of_lt_of_le hi (hmax i), hmax, rfl⟩
  · left
    rw [if_neg h]
    push Not at h
    exact ⟨h, rfl⟩

/-- **C87** is false: with an infinite limit for the second gate and the limit 5/4 for the first, whose
variance is 1, a measurement is requested, and the requested point moves both gates. -/
theorem infinite_limit_refuted {eigh : Eigh} (heigh : EighSpec eigh) :
    ∃ (f : KG 1 2) (d : Fin 2 → ℝ), f.P.PosSemidef ∧
      (let e := Est.new f 0 (some 0) ![.fin (5 / 4), .inf] 1
       (∀ v, UnitOn [0] v → variance e.cov v ≤ 5 / 4) ∧
       e.require eigh [0] = none ∧
       e.require eigh [0, 1] = some (displaced 0 d) ∧ d 0 ≠ 0 ∧ d 1 ≠ 0) := by
  let P : Matrix (Fin (1 * 2)) (Fin (1 * 2)) ℝ := fun _ _ => 1
  let f : KG 1 2 := KG.new none none (some P) none none 1
  let e := Est.new f 0 (some 0) ![.fin (5 / 4), .inf] 1
  have hcov : e.cov = fun _ _ => 1 := rfl
  have hP : P.PosSemidef := by
    refine PosSemidef.of_dotProduct_mulVec_nonneg ?_ ?_
    · ext i j
      rw [conjTranspose_apply]
      rfl
    · intro x
      have : star x ⬝ᵥ P *ᵥ x = (∑ i, x i) ^ 2 := by
        simp only [star_trivial, dotProduct, mulVec, P, one_mul]
        rw [← Finset.sum_mul, sq]
      rw [this]
      positivity
  -- one gate
  have hone : e.require eigh [0] = none := by
    let A : Matrix (Fin 1) (Fin 1) ℝ := fun a b => e.cov (([0] : List (Fin 2)).get a) (([0] : List (Fin 2)).get b)
    have hA : A = fun _ _ => 1 := rfl
    obtain ⟨hV, hAV⟩ := heigh 1 A (by ext i j; rfl)
    unfold Est.require
    dsimp only
    rw [if_neg]
    rintro ⟨j, hj⟩
    have hj0 : j = 0 := Subsingleton.elim (α := Fin 1) _ _
    subst hj0
    have h1 := hV 0 0
    have h2 := hAV 0 0
    simp only [Finset.univ_unique, Finset.sum_singleton, if_true, Fin.default_eq_zero] at h1 h2
    rw [hA, one_mul] at h2
    rw [hA] at h1
    have hw : (eigh 1 fun _ _ => 1).1 0 = 1 := by
      have hne : (eigh 1 fun _ _ => 1).2 0 0 ≠ 0 := by
        intro h0
        rw [h0] at h1
        norm_num at h1
      field_simp at h2
      exact h2.symm
    rw [gt_iff_lt, Real.lt_sqrt (by norm_num)] at hj
    have hsum : ∀ g : Fin ([0] : List (Fin 2)).length → ℝ, ∑ a, g a = g 0 := fun g => by
      show ∑ a : Fin 1, g a = _
      simp
    rw [hsum] at hj
    change (1 : ℝ) ^ 2 < (((eigh 1 fun _ _ => 1).1 0 * (eigh 1 fun _ _ => 1).2 0 0) / (5 / 4)) ^ 2 at hj
    rw [hw, one_mul, div_pow, sq ((eigh 1 fun _ _ => 1).2 0 0), h1] at hj
    norm_num at hj
  -- both gates
  let A : Matrix (Fin 2) (Fin 2) ℝ := fun _ _ => 1
  obtain ⟨hV, hAV⟩ := heigh 2 A (by ext i j; rfl)
  set w := (eigh 2 A).1 with hw
  set V := (eigh 2 A).2 with hVd
  have e00 := hV 0 0
  have e11 := hV 1 1
  have e01 := hV 0 1
  simp only [Fin.sum_univ_two, if_true, if_false, Fin.isValue, zero_ne_one, A, one_mul] at e00 e11 e01 hAV
  -- entries of the columns: either the eigenvalue is 0 or both entries are equal
  have hcol : ∀ j, w j = 0 ∨ (V 0 j = V 1 j ∧ w j = 2 ∧ V 0 j ^ 2 = 1 / 2) := by
    intro j
    have a0 := hAV 0 j
    have a1 := hAV 1 j
    have hn := hV j j
    simp only [Fin.sum_univ_two, if_true] at hn
    by_cases h0 : w j = 0
    · exact Or.inl h0
    · right
      have heq : V 0 j = V 1 j := by
        have : w j * (V 0 j - V 1 j) = 0 := by linarith
        rcases mul_eq_zero.1 this with h | h
        · exact absurd h h0
        · linarith
      have hne : V 0 j ≠ 0 := by
        intro h
        rw [← heq, h] at hn
        norm_num at hn
      refine ⟨heq, ?_, ?_⟩
      · rw [← heq] at a0
        have : (w j - 2) * V 0 j = 0 := by linarith
        rcases mul_eq_zero.1 this with h | h
        · linarith
        · exact absurd h hne
      · rw [← heq] at hn
        linarith
  have hex : ∃ j, w j ≠ 0 := by
    by_contra hno
    push Not at hno
    have b0 := hAV 0 0
    have b1 := hAV 0 1
    rw [hno, zero_mul] at b0 b1
    -- the columns are orthonormal and both orthogonal to (1, 1)
    have h1 : V 1 0 = - V 0 0 := by linarith
    have h2 : V 1 1 = - V 0 1 := by linarith
    rw [h1] at e00 e01
    rw [h2] at e11 e01
    have h3 : V 0 0 * V 0 1 = 0 := by linarith
    rcases mul_eq_zero.1 h3 with h | h
    · rw [h] at e00; norm_num at e00
    · rw [h] at e11; norm_num at e11
  have hgt : ∀ j, w j ≠ 0 → 1 < Real.sqrt ((w j * V 0 j / (5 / 4)) ^ 2) := by
    intro j hj
    rcases hcol j with h | ⟨-, h2, h3⟩
    · exact absurd h hj
    · rw [Real.lt_sqrt (by norm_num), h2, div_pow, mul_pow, h3]
      norm_num
  have hget : ∀ a : Fin ([0, 1] : List (Fin 2)).length, ([0, 1] : List (Fin 2)).get a = a := by
    intro a
    fin_cases a <;> rfl
  have hpos : ∀ i : Fin 2, position ([0, 1] : List (Fin 2)) i = some i := by
    intro i
    have h := position_get (n := 2) (gates := [0, 1]) (by decide) i
    rwa [hget] at h
  have hcases := require_cases eigh [0, 1] e w V rfl rfl
    (fun j => Real.sqrt ((w j * V 0 j / (5 / 4)) ^ 2)) (by
      intro j
      congr 1
      simp only [hget]
      show _ = ∑ a : Fin 2, (((![.fin (5 / 4), .inf] : Fin 2 → Limit) a).under (w j * V a j)) ^ 2
      simp [Fin.sum_univ_two, Limit.under])
  obtain ⟨j₀, hj₀⟩ := hex
  rcases hcases with ⟨hle, -⟩ | ⟨j, hj, -, hreq⟩
  · exact absurd (hgt j₀ hj₀) (not_lt.2 (hle j₀))
  · have hwj : w j ≠ 0 := by
      intro h
      rw [h] at hj
      norm_num at hj
    rcases hcol j with h | ⟨h1, -, h3⟩
    · exact absurd h hwj
    · have hne : V 0 j ≠ 0 := by
        intro h
        rw [h] at h3
        norm_num at h3
      have hadd : addFill e.pos (fun i => (position ([0, 1] : List (Fin 2)) i).map
          fun a => e.eps i * V a j) = displaced 0 fun i => V i j := by
        funext i
        unfold addFill displaced
        simp only [hpos]
        show some (0 + 1 * V i j) = _
        simp
      have hreq := hreq.trans (congrArg some hadd)
      refine ⟨f, fun i => V i j, hP, ?_, hone, hreq, hne, fun h => hne (h1.trans h)⟩
      intro v hv
      have h1 : v 1 = 0 := hv.support 1 (by decide)
      have h2 := hv.unit
      have : variance e.cov v = v 0 ^ 2 := by
        rw [hcov]
        simp [variance, Fin.sum_univ_two, h1, sq]
      change variance e.cov v ≤ _
      rw [this]
      simp [Fin.sum_univ_two, h1] at h2
      rcases h2 with h2 | h2 <;> rw [h2] <;> norm_num

/-! ### The self initialising estimator -/

/-- Updates one after the other, also after exceptions. -/
noncomputable def SelfInit.updates {n : Nat} (e : SelfInit n) :
    List (Gradient.Vec n × ℝ × ℝ × Bool) → SelfInit n
  | [] => e
  | (p, v, c, b) :: us => (e.update p v c b).1.updates us

theorem selfInit_step (e : SelfInit n) (h : e.kalman = none) (p : Gradient.Vec n) (v c : ℝ) (b : Bool) :
    (e.update p v c b).1.kalman = none ∧
    ((e.update p v c b).1.fd.estimate ≠ none → (e.update p v c b).2 = .error .typeError ∨
      ∃ err, (e.fd.update p (some v) (some c)).2 = .error err) := by
  unfold SelfInit.update
  split
  · rename_i hfd
    exact ⟨h, fun _ => Or.inr ⟨_, by rw [hfd]⟩⟩
  · rw [h]
    dsimp only
    split
    · rename_i hnone
      exact ⟨rfl, fun hne => absurd hnone hne⟩
    · exact ⟨rfl, fun _ => Or.inl rfl⟩

theorem fd_error_no_estimate (e : Gradient.FD n) (p : Gradient.Vec n) (v c : Val) {err : PyErr}
    (h : (e.update p v c).2 = .error err) : (e.update p v c).1.estimate = none := by
  unfold Gradient.FD.update at h ⊢
  cases hp : e.pos with
  | none => simp [hp] at h
  | some c₀ =>
    cases he : e.estimate with
    | some r => simp [hp, he] at h
    | none =>
      simp only [hp, he] at h ⊢
      split
      · rename_i hc
        rw [if_pos hc] at h
        split
        · rfl
        · rename_i hg
          simp [hg] at h
      · rename_i hc
        rw [if_neg hc] at h
        split
        · rename_i hc'
          rw [if_pos hc'] at h
          split
          · rfl
          · rename_i hg
            rw [hg] at h
            simp at h
        · rfl

/-- **C51** is false: whatever is measured, an estimator made by `from_scratch` never gets a Kalman
estimator, and every update that completes the finite difference phase or follows it raises `TypeError`. -/
theorem self_initialising_refuted (pos : Option (Gradient.Vec n)) (eps : Gradient.Vec n) (limit : Limit)
    (symmetric : Bool) (us : List (Gradient.Vec n × ℝ × ℝ × Bool)) (p : Gradient.Vec n) (v c : ℝ) (b : Bool) :
    let e := (SelfInit.fromScratch pos eps limit symmetric).updates us
    e.kalman = none ∧
    ((e.update p v c b).1.fd.estimate ≠ none → (e.update p v c b).2 = .error .typeError) := by
  intro e
  have hk : e.kalman = none := by
    have : ∀ (us : List (Gradient.Vec n × ℝ × ℝ × Bool)) (e : SelfInit n), e.kalman = none →
        (e.updates us).kalman = none := by
      intro us
      induction us with
      | nil => exact fun e h => h
      | cons u us ih => exact fun e h => ih _ (selfInit_step e h _ _ _ _).1
    exact this us _ rfl
  refine ⟨hk, fun hne => ?_⟩
  rcases (selfInit_step e hk p v c b).2 hne with h | ⟨err, h⟩
  · exact h
  · exfalso
    apply hne
    have h1 := fd_error_no_estimate _ _ _ _ h
    unfold SelfInit.update
    split
    · rename_i hfd
      rw [hfd] at h1
      exact h1
    · rename_i hfd
      rw [hfd] at h
      cases h

/-- The finite difference phase is completed by two measurements of one gate. -/
example : ((((SelfInit.fromScratch (n := 1) none 1 .inf false).updates [(0, 0, 1, true)]).update
    1 3 1 true).1.fd.estimate ≠ none) := by
  have h : ((Gradient.FD.new (n := 1) none 1 false).update 0 (some 0) (some 1)) =
      (⟨some 0, 1, false, none, [(0, some 0, some 1)], []⟩, .ok ()) := rfl
  have h1 : (SelfInit.fromScratch (n := 1) none 1 .inf false).updates [(0, 0, 1, true)] =
      ⟨⟨some 0, 1, false, none, [(0, some 0, some 1)], []⟩, none, some ⟨some .inf, none⟩, none⟩ := rfl
  rw [h1]
  have h2 : ∃ r, Gradient.gradientOf (n := 1) [(1, some 3, some 1), (0, some 0, some 1)] = .ok r := by
    have hd : (Gradient.columns (n := 1) [0 - 1]).det ≠ 0 := by
      rw [det_fin_one]
      norm_num [Gradient.columns]
    have h3 : Gradient.calculateGradient (n := 1) [1, 0] [3, 0] [1, 1] =
        Gradient.fromDiffs [0 - 1] [0 - 3] [1 + 1] := by
      unfold Gradient.calculateGradient
      simp [Gradient.baseDiffs, Gradient.baseSums]
    unfold Gradient.gradientOf
    simp only [List.map_cons, List.map_nil, Gradient.allReal, Option.map_some, Option.getD_some, h3]
    unfold Gradient.fromDiffs
    rw [if_neg hd]
    exact ⟨_, rfl⟩
  obtain ⟨r, h2⟩ := h2
  have h5 : Gradient.FD.update (n := 1) 1 (some 3) (some 1) ⟨some 0, 1, false, none, [(0, some 0, some 1)], []⟩ =
      (⟨some 0, 1, false, some r, [(0, some 0, some 1), (1, some 3, some 1)], []⟩, .ok ()) := by
    unfold Gradient.FD.update
    simp [h2]
  unfold SelfInit.update
  simp [h5, power]

end Qtune.Kalman
