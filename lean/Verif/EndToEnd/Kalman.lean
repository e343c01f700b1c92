import Verif.Newton.PropsStep
import Verif.Kalman.EstimatorTuned

/-!
# A Newton solver with Kalman estimators: requests while lower parameters are tuned

The models of `NewtonSolver` and `KalmanGradientEstimator` are put together.
-/

namespace Qtune.EndToEnd

open Matrix Qtune.Tuner Qtune.Kalman

variable {n : Nat}

/-- The Kalman estimator as it is used by the solver (gradient.py:227-371).  A tuned Jacobian has the gates
of the solver as columns (solver.py:216-217).  Simplification: values and variances are free of NaN
(a tuner does not update its solver otherwise, parameter_tuner.py:240-242), NaN is read as 0; so it is in
the Jacobian. -/
noncomputable def kalmanI (eigh : Eigh) (nullspace : Nullspace) : Newton.EstI (Est n) (Fin n) where
  estimate := fun e => some fun i => some (e.estimate i)
  require := fun gates tj e =>
    (e, .ok (match tj with
      | none => (e.require eigh gates).map fun q i => some (q i)
      | some rows => (e.requireTuned nullspace gates.get
          (Matrix.of fun (k : Fin rows.length) a => (rows.get k (gates.get a)).getD 0)).map
            fun q i => some (q i)))
  update := fun v x y e => e.update v (x.getD 0) (y.getD 0) true

/-- An update with a new position: it is taken over, limits and step sizes stay. -/
theorem est_update_ok {v : Fin n → Val} {x y : ℝ} {e e' : Est n}
    (h : e.update v x y true = (e', .ok ())) :
    e'.pos = v ∧ e'.maxCov = e.maxCov ∧ e'.eps = e.eps := by
  unfold Est.update at h
  dsimp only at h
  split at h
  · cases h; exact ⟨rfl, rfl, rfl⟩
  · split at h
    · cases h; exact ⟨rfl, rfl, rfl⟩
    · split at h
      · cases h
      · split at h
        · cases h
        · cases h; exact ⟨rfl, rfl, rfl⟩

/-- A suggestion that is not a Newton step is the request of an estimator that belongs to a parameter with
set point. -/
theorem ask_some {E ι : Type} {I : Newton.EstI E ι} {gates : List ι} {tj : Option (List (ι → Val))}
    {res : List (Row × E)} {es : List E} {p : ι → Option Val}
    (h : Newton.ask I gates tj res = (es, .ok (some p))) :
    ∃ re ∈ res, re.1.desired ≠ none ∧ (I.require gates tj re.2).2 = .ok (some p) := by
  induction res generalizing es with
  | nil => cases h
  | cons re rest ih =>
    obtain ⟨r, e⟩ := re
    unfold Newton.ask at h
    have lift : ∀ {es : List E}, Newton.ask I gates tj rest = (es, .ok (some p)) →
        ∃ re ∈ (r, e) :: rest, re.1.desired ≠ none ∧ (I.require gates tj re.2).2 = .ok (some p) :=
      fun h => by
        obtain ⟨re, h1, h2⟩ := ih h
        exact ⟨re, List.mem_cons_of_mem _ h1, h2⟩
    split at h
    · rcases hr : Newton.ask I gates tj rest with ⟨es', res'⟩
      rw [hr] at h
      cases h
      exact lift hr
    · rename_i hd
      rcases hreq : I.require gates tj e with ⟨e', r'⟩
      rw [hreq] at h
      rcases r' with err | (_ | q)
      · cases h
      · dsimp only at h
        rcases hr : Newton.ask I gates tj rest with ⟨es', res'⟩
        rw [hr] at h
        cases h
        exact lift hr
      · dsimp only at h
        split at h
        · cases h
          exact ⟨(r, e), List.mem_cons_self, by simpa using hd, by rw [hreq]⟩
        · rcases hr : Newton.ask I gates tj rest with ⟨es', res'⟩
          rw [hr] at h
          cases h
          exact lift hr

/-- The estimators after a successful `update_after_step`. -/
theorem feed_mem {eigh : Eigh} {nullspace : Nullspace} {T : Target} {v : Fin n → Val}
    {es : List (Est n)} {values : Series} {variances : List Val} {es' : List (Est n)}
    (hl : es.length = values.length) (hl' : values.length ≤ variances.length)
    (h : Newton.feed (kalmanI eigh nullspace) T v es values variances = (es', .ok ()))
    {k : Nat} {e' : Est n} (he : es'[k]? = some e') :
    ∃ (e : Est n) (l : String) (x : Val) (r : Row), es[k]? = some e ∧ values[k]? = some (l, x) ∧
      T.row? l = some r ∧ (r.desired ≠ none → e'.pos = v ∧ e'.maxCov = e.maxCov ∧ e'.eps = e.eps) := by
  obtain ⟨hlen, hall⟩ := Newton.feed_spec _ T v es values variances es' hl hl' h
  have hk : k < es.length := by
    have := (List.getElem?_eq_some_iff.1 he).1
    omega
  obtain ⟨r, hr, hes, hok⟩ := hall k (values[k]'(by omega)).1 (values[k]'(by omega)).2
    (variances[k]'(by omega)) es[k] (by simp [hk]) (by
      rw [List.getElem?_eq_getElem (by omega)]) (by rw [List.getElem?_eq_getElem (by omega)])
  refine ⟨es[k], _, _, r, by simp [hk], List.getElem?_eq_getElem (by omega), hr, fun hd => ?_⟩
  rw [if_neg hd] at hes
  rw [hes] at he
  cases he
  have := hok hd
  refine est_update_ok (x := ((values[k]'(by omega)).2).getD 0) (y := (variances[k]'(by omega)).getD 0)
    (Prod.ext rfl this)

/-- **C105**, the case in which it holds.  A Newton solver with Kalman estimators has been told the values
at the voltages `v`; the parameters in `tuned`, at least one of which is a parameter of the solver, are
tuned.  If `epsilon` is the same for all gates of the solver, every suggestion is either made without any
request, or it is a displacement from `v` on the gates of the solver that does not change any of the
tuned parameters to first order (according to the estimated gradients).
Missing: different entries of `epsilon`, see `request_keeps_tuned_refuted` (C48). -/
theorem request_keeps_tuned_parameters_partial {eigh : Eigh} {nullspace : Nullspace}
    (hn : NullspaceSpec nullspace) {lstsq : Newton.Lstsq (Fin n)}
    {s s' s'' : Newton.State (Est n) (Fin n)} {v : Fin n → ℝ} {values variances : Series}
    (hnd : s.target.names.Nodup) (hlen : s.ests.length = s.target.length)
    (hidx : s.values.index = s.target.names) (hvar : variances.length = s.target.length)
    (hgates : s.gates.Nodup)
    (heps : ∀ e ∈ s.ests, ∃ c, ∀ i ∈ s.gates, e.eps i = c)
    (hmax : ∀ e ∈ s.ests, ∃ m, ∀ i, e.maxCov i = .fin m)
    (hup : Newton.update (kalmanI eigh nullspace) (fun i => some (v i)) values variances s =
      (s', .ok ()))
    {tuned : List String} (htuned : ∃ r ∈ s.target, r.name ∈ tuned) {p : Fin n → Option Val}
    (hp : Newton.suggest (kalmanI eigh nullspace) lstsq tuned s' = (s'', .ok p)) :
    (∃ q, Newton.newtonStep (kalmanI eigh nullspace) lstsq s'' = .ok q ∧
      ∀ i, p i = if i ∈ s.gates then some (q i) else none) ∨
    ∃ d : Fin n → ℝ, (∀ i, p i = some (some (v i + d i))) ∧ (∀ i, i ∉ s.gates → d i = 0) ∧
      ∀ (k : Nat) (r : Row) (e : Est n), s.target[k]? = some r → r.name ∈ tuned → s'.ests[k]? = some e →
        Newton.change s.gates e.estimate d = 0 := by
  classical
  obtain ⟨ht, hg, -, -⟩ := Newton.update_ok hup
  -- the estimators after the update
  have hests : ∀ (k : Nat) (r : Row) (e' : Est n), s.target[k]? = some r → r.desired ≠ none →
      s'.ests[k]? = some e' → (e'.pos = fun i => some (v i)) ∧ (∃ c, ∀ i ∈ s.gates, e'.eps i = c) ∧
        ∃ m, ∀ i, e'.maxCov i = .fin m := by
    intro k r e' hr hd he
    unfold Newton.update at hup
    rcases hsel : values.select s.values.index with err | vals
    · rw [hsel] at hup; cases hup
    · rw [hsel] at hup
      have hvals := Series.select_ok hsel
      rw [hidx] at hvals
      simp only at hup
      rcases hfeed : Newton.feed (kalmanI eigh nullspace) s.target (fun i => some (v i)) s.ests vals
        (variances.map Prod.snd) with ⟨es, res⟩
      rw [hfeed] at hup
      rcases res with err | _
      · cases hup
      · simp only [Prod.mk.injEq, and_true] at hup
        subst hup
        have hlv : vals.length = s.target.length := by
          rw [hvals]; simp [Target.names]
        obtain ⟨e, l, x, r', h1, h2, h3, h4⟩ := feed_mem (by omega) (by simp; omega) hfeed he
        have hl : l = r.name := by
          rw [hvals, List.getElem?_map, Target.names, List.getElem?_map, hr] at h2
          simp only [Option.map_some, Option.some.injEq, Prod.mk.injEq] at h2
          exact h2.1.symm
        rw [hl, Newton.row?_getElem hnd hr] at h3
        cases h3
        obtain ⟨ha, hb, hc⟩ := h4 hd
        rw [ha, hb, hc]
        have hmem := List.mem_of_getElem? h1
        exact ⟨rfl, heps e hmem, hmax e hmem⟩
  have hlen' : s'.ests.length = s'.target.length := by
    unfold Newton.update at hup
    rcases hsel : values.select s.values.index with err | vals
    · rw [hsel] at hup; cases hup
    · rw [hsel] at hup
      have hvals := Series.select_ok hsel
      rw [hidx] at hvals
      simp only at hup
      rcases hfeed : Newton.feed (kalmanI eigh nullspace) s.target (fun i => some (v i)) s.ests vals
        (variances.map Prod.snd) with ⟨es, res⟩
      rw [hfeed] at hup
      rcases res with err | _
      · cases hup
      · simp only [Prod.mk.injEq, and_true] at hup
        subst hup
        have hlv : vals.length = s.target.length := by
          rw [hvals]; simp [Target.names]
        have := (Newton.feed_spec _ _ _ _ _ _ _ (by omega) (by simp; omega) hfeed).1
        show es.length = s.target.length
        omega
  unfold Newton.suggest at hp
  rcases htj : Newton.tunedJacobian (kalmanI eigh nullspace) tuned s' with err | tj
  · rw [htj] at hp; cases hp
  rw [htj] at hp
  dsimp only at hp
  rcases hask : Newton.ask (kalmanI eigh nullspace) s'.gates tj (s'.target.zip s'.ests) with ⟨es, res⟩
  rw [hask] at hp
  rcases res with err | (_ | q)
  · cases hp
  · dsimp only at hp
    rcases hstep : Newton.newtonStep (kalmanI eigh nullspace) lstsq { s' with ests := es } with err | q
    · rw [hstep] at hp; cases hp
    · rw [hstep] at hp
      cases hp
      refine Or.inl ⟨q, hstep, fun i => ?_⟩
      dsimp only
      rw [hg]
      split_ifs <;> rfl
  · cases hp
    right
    -- the rows of the Jacobian
    obtain ⟨rows, rfl⟩ : ∃ rows, tj = some rows := by
      cases tj with
      | some rows => exact ⟨rows, rfl⟩
      | none =>
        exfalso
        unfold Newton.tunedJacobian at htj
        split at htj
        · rename_i hnil
          rw [List.filter_eq_nil_iff] at hnil
          obtain ⟨r, hr, hrt⟩ := htuned
          rw [← ht] at hr
          obtain ⟨k, hk, rfl⟩ := List.getElem_of_mem hr
          have hmem : (s'.target[k], s'.ests[k]'(by omega)) ∈ s'.target.zip s'.ests := by
            rw [List.mem_iff_getElem]
            exact ⟨k, by simp; omega, by simp⟩
          have := hnil _ hmem
          simp [hrt] at this
        · split at htj <;> cases htj
    have hrows := (Newton.tuned_jacobian_rows (kalmanI eigh nullspace) tuned s').2 rows htj
    obtain ⟨⟨r, e⟩, hre, hd, hreq⟩ := ask_some hask
    obtain ⟨k, hk, hke⟩ := List.getElem_of_mem hre
    simp only [List.getElem_zip, Prod.mk.injEq] at hke
    have hk' : k < s'.target.length ∧ k < s'.ests.length := by simpa using hk
    obtain ⟨hpos, ⟨c, hc⟩, ⟨m, hm⟩⟩ := hests k r e (by
      rw [← ht, ← hke.1]; exact List.getElem?_eq_getElem hk'.1) hd (by
      rw [← hke.2]; exact List.getElem?_eq_getElem hk'.2)
    have he : e = Est.new e.filter v e.value (fun _ => .fin m) e.eps := by
      obtain ⟨f, pos, value, mc, eps⟩ := e
      have h1 : mc = fun _ => .fin m := funext hm
      have h2 : pos = fun i => some (v i) := hpos
      subst h1 h2
      rfl
    simp only [kalmanI, Except.ok.injEq, Option.map_eq_some_iff] at hreq
    obtain ⟨q', hq', rfl⟩ := hreq
    rw [he] at hq'
    have hinj : Function.Injective s'.gates.get := by
      rw [hg]
      exact List.nodup_iff_injective_get.1 hgates
    obtain ⟨d, rfl, hd0, hJ⟩ := request_keeps_tuned_partial hn hinj _ _ _ _ _ _ c
      (fun a => hc _ (by rw [← hg]; exact List.get_mem _ a)) hq'
    refine ⟨d, fun i => rfl, ?_, ?_⟩
    · intro i hi
      refine hd0 i fun a ha => hi ?_
      rw [← hg, ← ha]
      exact List.get_mem _ a
    · intro k₁ r₁ e₁ hr₁ ht₁ he₁
      have hmem : (fun i => some (e₁.estimate i)) ∈ rows := by
        rw [hrows, List.mem_filterMap]
        refine ⟨(r₁, e₁), ?_, rfl⟩
        rw [List.mem_filter]
        refine ⟨?_, by simpa using ht₁⟩
        rw [← ht] at hr₁
        exact List.mem_of_getElem? (List.getElem?_zip_eq_some.2 ⟨hr₁, he₁⟩)
      obtain ⟨j, hj⟩ := List.get_of_mem hmem
      have h0 := congrFun hJ j
      simp only [mulVec, dotProduct, Matrix.of_apply, hj, Option.getD_some, Pi.zero_apply] at h0
      unfold Newton.change
      rw [← hg, ← h0]
      rw [← Finset.sum_image (s := Finset.univ) (g := s'.gates.get) (f := fun i => e₁.estimate i * d i)
        (fun a _ b _ h => hinj h)]
      refine Finset.sum_congr ?_ fun _ _ => rfl
      ext i
      simp only [List.mem_toFinset, Finset.mem_image, Finset.mem_univ, true_and]
      exact List.mem_iff_get

/-! ### A case that meets the hypotheses -/

/-- Estimator on two gates with gradient `(1, 1)`, variance 2 in all directions and limit 1. -/
noncomputable def sampleEst : Est 2 :=
  ⟨KG.new none (some 1) (some ((2 : ℝ) • 1)) none none 1, fun _ => none, none, fun _ => .fin 1, fun _ => 3⟩

/-- Two parameters with set points, `a` is tuned. -/
noncomputable def sampleSolver : Newton.State (Est 2) (Fin 2) :=
  ⟨[Newton.plainRow "a" (some 5), Newton.plainRow "b" (some 6)], [sampleEst, sampleEst], [0, 1],
    fun _ => none, [("a", none), ("b", none)]⟩

/-- The hypotheses are met, and the suggestion is a request that moves the gates. -/
example {eigh : Eigh} {nullspace : Nullspace} (hn : NullspaceSpec nullspace)
    (lstsq : Newton.Lstsq (Fin 2)) :
    ∃ (s' s'' : Newton.State (Est 2) (Fin 2)) (d : Fin 2 → ℝ),
      Newton.update (kalmanI eigh nullspace) (fun _ => some 7) [("b", some 2), ("a", some 1)]
        [("a", some 1), ("b", some 1)] sampleSolver = (s', .ok ()) ∧
      Newton.suggest (kalmanI eigh nullspace) lstsq ["a"] s' = (s'', .ok fun i => some (some (7 + d i))) ∧
      d ≠ 0 ∧ sampleSolver.target.names.Nodup ∧ sampleSolver.gates.Nodup := by
  let e' : Val → Est 2 := fun x => { sampleEst with pos := fun _ => some 7, value := some (x.getD 0) }
  let s' : Newton.State (Est 2) (Fin 2) :=
    { sampleSolver with
      ests := [e' (some 1), e' (some 2)], pos := fun _ => some 7, values := [("a", some 1), ("b", some 2)] }
  have hup : Newton.update (kalmanI eigh nullspace) (fun _ => some 7) [("b", some 2), ("a", some 1)]
        [("a", some 1), ("b", some 1)] sampleSolver = (s', .ok ()) := by
    simp [Newton.update, Series.select, Series.index, Series.val, List.lookup, Newton.feed, Target.row?,
      Newton.plainRow, sampleSolver, kalmanI, Est.update, sampleEst, s', e']
  let J : Matrix (Fin 1) (Fin 2) ℝ := Matrix.of fun _ _ => 1
  let f : KG 1 2 := sampleEst.filter
  have hcov : ∀ (x : Option ℝ) (w : Fin 2 → ℝ),
      variance (Est.new f (fun _ => 7) x (fun _ => .fin 1) fun _ => 3).cov w = 2 * ∑ i, w i ^ 2 := by
    intro x w
    simp [variance, Est.cov, Est.new, f, sampleEst, KG.new, Fin.sum_univ_two, one_apply]
    ring
  have hne : directions nullspace id J ≠ [] := by
    intro h
    unfold directions at h
    rw [List.map_eq_nil_iff, List.map_eq_nil_iff] at h
    obtain ⟨free, -, -, h3⟩ := hn 1 2 J
    have := h3 ![1, -1] (by ext i; simp [J, mulVec, dotProduct, Fin.sum_univ_two])
    have h0 := congrFun this 0
    rw [Finset.sum_apply, Finset.sum_eq_zero] at h0
    · simp at h0
    · intro a _
      have h1 := a.2
      have h2 : (nullspace 1 2 J).length = 0 := by rw [h]; rfl
      omega
  obtain ⟨v₀, hv₀⟩ := List.exists_mem_of_ne_nil _ hne
  have hreq : ∀ x : ℝ, ∃ v : Fin 2 → ℝ, UnitNull id J v ∧
      (e' (some x)).requireTuned nullspace id J = some (displaced (fun _ => 7) fun i => 3 * v i) := by
    intro x
    have he : e' (some x) = Est.new f (fun _ => 7) (some x) (fun _ => .fin 1) fun _ => 3 := rfl
    rw [he]
    cases hr : (Est.new f (fun _ => 7) (some x) (fun _ => .fin 1) fun _ => 3).requireTuned nullspace id J with
    | none =>
      exfalso
      rw [requireTuned_eq _ _ _ _ _ _ _ _ (by norm_num)] at hr
      dsimp only at hr
      rw [if_pos ⟨v₀, hv₀, by
        rw [hcov, (directions_unitNull hn Function.injective_id hv₀).unit]; norm_num⟩] at hr
      split at hr
      · rename_i harg
        rw [List.argmax_eq_none] at harg
        exact hne harg
      · cases hr
    | some q =>
      obtain ⟨v, hv, -, rfl⟩ := tuned_request_sound hn Function.injective_id J f _ _ _ _ hr
      exact ⟨v, hv, rfl⟩
  obtain ⟨v, hv, hr⟩ := hreq 1
  have htj : Newton.tunedJacobian (kalmanI eigh nullspace) ["a"] s' =
      .ok (some [fun i => some ((e' (some 1)).estimate i)]) := by
    simp [Newton.tunedJacobian, Newton.concat, s', sampleSolver, kalmanI, Newton.plainRow]
  have hest : (e' (some 1)).estimate = fun _ => 1 := by
    funext i
    simp [e', Est.estimate, sampleEst, KG.grad, KG.new]
  have hr' : (e' (some 1)).requireTuned nullspace s'.gates.get
      (Matrix.of fun (k : Fin [fun i => some ((e' (some 1)).estimate i)].length) a =>
        ([fun i => some ((e' (some 1)).estimate i)].get k (s'.gates.get a)).getD 0) =
      some (displaced (fun _ => 7) fun i => 3 * v i) := by
    have h1 : (s'.gates.get : Fin 2 → Fin 2) = id := by
      funext i; fin_cases i <;> rfl
    have h2 : (Matrix.of fun (k : Fin 1) (a : Fin 2) =>
        ([fun i => some ((e' (some 1)).estimate i)].get k (s'.gates.get a)).getD 0) = J := by
      ext k a
      obtain rfl : k = 0 := Subsingleton.elim _ _
      simp [J, hest]
    calc _ = (e' (some 1)).requireTuned nullspace (s'.gates.get : Fin 2 → Fin 2) J := by rw [← h2]; rfl
      _ = _ := by rw [h1]; exact hr
  refine ⟨s', s', fun i => 3 * v i, hup, ?_, ?_, ?_, ?_⟩
  · have hask := Newton.requests_have_priority (kalmanI eigh nullspace) lstsq ["a"] s' _ htj []
      [(Newton.plainRow "b" (some 6), e' (some 2))] (Newton.plainRow "a" (some 5)) (e' (some 1)) rfl
      (by simp) (by simp [Newton.plainRow]) (fun i => some (some (7 + 3 * v i))) (by
        show Except.ok (Option.map _ _) = _
        rw [hr']
        rfl) ⟨0, by simp⟩
    rw [hask]
    rfl
  · intro h
    have h0 := hv.unit
    have hv0 : ∀ i, v i = 0 := fun i => by
      have := congrFun h i
      simpa using this
    simp [hv0] at h0
  · simp [sampleSolver, Target.names, Newton.plainRow]
  · simp [sampleSolver]

end Qtune.EndToEnd
