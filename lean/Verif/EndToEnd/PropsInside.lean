import Verif.EndToEnd.InsideRun
import Verif.EndToEnd.PropsStopped
import Verif.Kalman.PropsPosition

/-! # C213: a tuning that is interrupted inside of an evaluation or a suggestion can be completed -/

namespace Qtune.EndToEnd

open Qtune.Tuner Qtune.Gradient Qtune.Kalman Qtune.Autotuner Matrix

variable {n m : Nat}

/-- The update of the filter alone. -/
theorem filterPart_certain {S : Setup n m} (ha : S.Affine) {k : Fin m} {l : ℝ} {e : Est n}
    (h : Certain (fun i => S.grad k i / S.scale k) l e) (hm : e.value = none ∨ Measured (S.scaled k) e) (q : Vec n) {y : ℝ} (hy : 0 < y) :
    ∀ e' ∈ filterPart (volts q) (some (S.scaled k q)) (some y) e,
      Certain (fun i => S.grad k i / S.scale k) l e' ∧ (e'.value = none ∨ Measured (S.scaled k) e') := by
  obtain ⟨e₁, he₁, hc, -⟩ := certain_update (eigh := fun _ _ => (fun _ => 0, 0)) (nullspace := fun _ _ _ => []) ha h hm q hy
  have he₁' : e.update (volts q) ((some (S.scaled k q)).getD 0) ((some y).getD 0) true = (e₁, .ok ()) := he₁
  intro e' he'
  unfold filterPart at he'
  split at he'
  · cases he'
  · rw [he₁'] at he'
    simp only [List.mem_cons, List.not_mem_nil, or_false] at he'
    subst he'
    exact ⟨⟨hc.static, hc.gradient, hc.psd, hc.limit, hc.certain⟩, hm⟩

/-- **C213**, Kalman estimators that begin with the gradients of the device: whatever calls of `iterate` were made, and wherever they were interrupted, also
inside of an evaluation or a suggestion, five more calls complete the tuning, none of which raises.  Missing: interruptions between the two assignments at the end of an update
of an estimator, see `torn_update_refuted`. -/
theorem stopped_inside_is_tuned_kalman_partial {S : Setup n m} (hS : S.Valid) (hpos : ∀ y ∈ S.variances, 0 < y)
    {eigh : Eigh} (heigh : EighSpec eigh) {nullspace : Nullspace} (hnull : NullspaceSpec nullspace)
    {lstsq : Newton.Lstsq (Fin n)} (hl : Newton.LstsqSpec lstsq) (c : Vec n) {t : OneTuner (Est n) n} {l : ℝ}
    (hl0 : 0 < l) (ht : KalmanInitial S l t) (hmax : t.maxStep = none) (calls : List StoppedCall) :
    CompletesWithin S (kalmanI eigh nullspace) lstsq 5
      (leaves (kalmanI eigh nullspace) filterPart lstsq S.outs (fresh t (volts c)) calls) := by
  have hn : n ≠ 0 := by
    rintro rfl
    have := hS.independent.fintype_card_le_finrank
    simp at this
    exact hS.nonempty this
  obtain ⟨E, hests, hE⟩ := ht.ests
  have hbase : Base S (t.maxStep, t.maxNumber) E t :=
    ⟨ht.target, hests, ht.gates, ht.index, rfl, rfl, ht.queued, ht.lastIndex⟩
  have hy : ∀ k, ∀ y ∈ S.seen k, 0 < y := by
    rintro k y ⟨v, hv, rfl⟩
    exact div_pos (hpos v hv) (mul_self_pos.2 (hS.scale k).2)
  have hup : ∀ k e, (Certain (fun i => S.grad k i / S.scale k) l e ∧ (e.value = none ∨ Measured (S.scaled k) e)) →
      ∀ q, ∀ y ∈ S.seen k, ∃ e', (kalmanI eigh nullspace).update (volts q) (some (S.scaled k q)) (some y) e = (e', .ok ()) ∧
        (Certain (fun i => S.grad k i / S.scale k) l e' ∧ Measured (S.scaled k) e') :=
    fun k e h q y hys => certain_update hS.affine h.1 h.2 q (hy k y hys)
  have hle : ∀ k e, (Certain (fun i => S.grad k i / S.scale k) l e ∧ Measured (S.scaled k) e) →
      (Certain (fun i => S.grad k i / S.scale k) l e ∧ (e.value = none ∨ Measured (S.scaled k) e)) :=
    fun k e h => ⟨h.1, .inr h.2⟩
  have hA := kalman_keeps hS hn hpos heigh hnull hl0
  have hsafe : Safe S (t.maxStep, t.maxNumber)
      (fun k e => Certain (fun i => S.grad k i / S.scale k) l e ∧ (e.value = none ∨ Measured (S.scaled k) e))
      (fun k e => Certain (fun i => S.grad k i / S.scale k) l e ∧ Measured (S.scaled k) e) (fresh t (volts c)) :=
    ⟨E, c, rfl, .inl rfl, .inl ⟨rfl, rfl, hbase, hE⟩⟩
  exact (hsafe.leaves hS hmax (lstsq := lstsq) hl hA hup hle
    (fun k e h q y hys => filterPart_certain hS.affine h.1 h.2 q (hy k y hys)) calls).completes hS hmax hl hA hup hle

/-- **C213**, the same with a maximal step size: further calls complete the tuning, none of which raises. -/
theorem stopped_inside_steps_are_tuned_kalman_partial {S : Setup n m} (hS : S.Valid) (hpos : ∀ y ∈ S.variances, 0 < y)
    {eigh : Eigh} (heigh : EighSpec eigh) {nullspace : Nullspace} (hnull : NullspaceSpec nullspace)
    {lstsq : Newton.Lstsq (Fin n)} (hl : Newton.LstsqSpec lstsq) (c : Vec n) {t : OneTuner (Est n) n} {l : ℝ}
    (hl0 : 0 < l) (ht : KalmanInitial S l t) {M : ℝ} (hM : 0 < M) (hmax : t.maxStep = some M) (hnum : 1 ≤ t.maxNumber) (calls : List StoppedCall) :
    ∃ N, CompletesWithin S (kalmanI eigh nullspace) lstsq N
      (leaves (kalmanI eigh nullspace) filterPart lstsq S.outs (fresh t (volts c)) calls) := by
  have hn : n ≠ 0 := by
    rintro rfl
    have := hS.independent.fintype_card_le_finrank
    simp at this
    exact hS.nonempty this
  obtain ⟨E, hests, hE⟩ := ht.ests
  have hbase : Base S (some M, t.maxNumber) E t :=
    ⟨ht.target, hests, ht.gates, ht.index, hmax, rfl, ht.queued, ht.lastIndex⟩
  have hy : ∀ k, ∀ y ∈ S.seen k, 0 < y := by
    rintro k y ⟨v, hv, rfl⟩
    exact div_pos (hpos v hv) (mul_self_pos.2 (hS.scale k).2)
  have hup : ∀ k e, (Certain (fun i => S.grad k i / S.scale k) l e ∧ (e.value = none ∨ Measured (S.scaled k) e)) →
      ∀ q, ∀ y ∈ S.seen k, ∃ e', (kalmanI eigh nullspace).update (volts q) (some (S.scaled k q)) (some y) e = (e', .ok ()) ∧
        (Certain (fun i => S.grad k i / S.scale k) l e' ∧ Measured (S.scaled k) e') :=
    fun k e h q y hys => certain_update hS.affine h.1 h.2 q (hy k y hys)
  have hle : ∀ k e, (Certain (fun i => S.grad k i / S.scale k) l e ∧ Measured (S.scaled k) e) →
      (Certain (fun i => S.grad k i / S.scale k) l e ∧ (e.value = none ∨ Measured (S.scaled k) e)) :=
    fun k e h => ⟨h.1, .inr h.2⟩
  have hA := kalman_keeps hS hn hpos heigh hnull hl0
  have hsafe : SafeSteps S (some M, t.maxNumber) M (kalmanI eigh nullspace) lstsq
      (fun k e => Certain (fun i => S.grad k i / S.scale k) l e ∧ (e.value = none ∨ Measured (S.scaled k) e))
      (fun k e => Certain (fun i => S.grad k i / S.scale k) l e ∧ Measured (S.scaled k) e) (fresh t (volts c)) :=
    ⟨c, rfl, .inl rfl, .inl ⟨rfl, rfl, .inl ⟨E, hbase, hE⟩⟩⟩
  exact (hsafe.leaves hS hM hnum hl hA hup hle
    (fun k e h q y hys => filterPart_certain hS.affine h.1 h.2 q (hy k y hys)) calls).completes hS hM hnum hl hA hup hle

/-- **C213**, finite difference estimators that have found the gradients: their method `update` changes nothing. -/
theorem stopped_inside_is_tuned_found_partial {S : Setup n m} (hS : S.Valid) (orth : Orth n)
    {lstsq : Newton.Lstsq (Fin n)} (hl : Newton.LstsqSpec lstsq) (c : Vec n) {t : OneTuner (FD n) n}
    (htarget : t.solver.target = S.target) {E : Fin m → FD n} (hests : t.solver.ests = List.ofFn E)
    (hE : ∀ k, (E k).pos ≠ none ∧ ∃ C, (E k).estimate = some (fun i => some (S.grad k i / S.scale k), C))
    (hgates : t.solver.gates = S.gates) (hindex : t.solver.values.index = S.target.names)
    (hlast : t.lastValues.index ⊆ S.target.names) (hqueued : t.queued = 0) (hmax : t.maxStep = none) (calls : List StoppedCall) :
    CompletesWithin S (fdI orth) lstsq 5 (leaves (fdI orth) (fun _ _ _ e => [e]) lstsq S.outs (fresh t (volts c)) calls) := by
  have hbase : Base S (t.maxStep, t.maxNumber) E t :=
    ⟨htarget, hests, hgates, hindex, rfl, rfl, hqueued, hlast⟩
  have hA := fd_keeps S orth
  have hup : ∀ k e, Done (fun i => S.grad k i / S.scale k) e → ∀ q, ∀ y ∈ S.seen k,
      ∃ e', (fdI orth).update (volts q) (some (S.scaled k q)) (some y) e = (e', .ok ()) ∧ Done (fun i => S.grad k i / S.scale k) e' :=
    fun k e he q y hy => (hA k).update _ he q y hy
  have hsafe : Safe S (t.maxStep, t.maxNumber) (fun k => Done fun i => S.grad k i / S.scale k)
      (fun k => Done fun i => S.grad k i / S.scale k) (fresh t (volts c)) :=
    ⟨E, c, rfl, .inl rfl, .inl ⟨rfl, rfl, hbase, fun k => ⟨(hE k).1, (hE k).2⟩⟩⟩
  exact (hsafe.leaves hS hmax (lstsq := lstsq) hl hA hup (fun _ _ h => h)
    (fun k e h q y _ e' he' => by rw [List.mem_singleton.1 he']; exact h) calls).completes hS hmax hl hA hup fun _ _ h => h

/-- **C213**, the same with a maximal step size. -/
theorem stopped_inside_steps_are_tuned_found_partial {S : Setup n m} (hS : S.Valid) (orth : Orth n)
    {lstsq : Newton.Lstsq (Fin n)} (hl : Newton.LstsqSpec lstsq) (c : Vec n) {t : OneTuner (FD n) n}
    (htarget : t.solver.target = S.target) {E : Fin m → FD n} (hests : t.solver.ests = List.ofFn E)
    (hE : ∀ k, (E k).pos ≠ none ∧ ∃ C, (E k).estimate = some (fun i => some (S.grad k i / S.scale k), C))
    (hgates : t.solver.gates = S.gates) (hindex : t.solver.values.index = S.target.names)
    (hlast : t.lastValues.index ⊆ S.target.names) (hqueued : t.queued = 0)
    {M : ℝ} (hM : 0 < M) (hmax : t.maxStep = some M) (hnum : 1 ≤ t.maxNumber) (calls : List StoppedCall) :
    ∃ N, CompletesWithin S (fdI orth) lstsq N (leaves (fdI orth) (fun _ _ _ e => [e]) lstsq S.outs (fresh t (volts c)) calls) := by
  have hbase : Base S (some M, t.maxNumber) E t :=
    ⟨htarget, hests, hgates, hindex, hmax, rfl, hqueued, hlast⟩
  have hA := fd_keeps S orth
  have hup : ∀ k e, Done (fun i => S.grad k i / S.scale k) e → ∀ q, ∀ y ∈ S.seen k,
      ∃ e', (fdI orth).update (volts q) (some (S.scaled k q)) (some y) e = (e', .ok ()) ∧ Done (fun i => S.grad k i / S.scale k) e' :=
    fun k e he q y hy => (hA k).update _ he q y hy
  have hsafe : SafeSteps S (some M, t.maxNumber) M (fdI orth) lstsq (fun k => Done fun i => S.grad k i / S.scale k)
      (fun k => Done fun i => S.grad k i / S.scale k) (fresh t (volts c)) :=
    ⟨c, rfl, .inl rfl, .inl ⟨rfl, rfl, .inl ⟨E, hbase, fun k => ⟨(hE k).1, (hE k).2⟩⟩⟩⟩
  exact (hsafe.leaves hS hM hnum hl hA hup (fun _ _ h => h)
    (fun k e h q y _ e' he' => by rw [List.mem_singleton.1 he']; exact h) calls).completes hS hM hnum hl hA hup fun _ _ h => h

/-- The states inside of an evaluation are those of `is_tuned`: they begin with that before the call, and they end with that after it, except for the list of voltages
at which the tuner was tuned. -/
theorem inside_is_tuned {X : Type} (I : Newton.EstI X (Fin n)) (parts : Volt (Fin n) → Val → Val → X → List X) (lstsq : Newton.Lstsq (Fin n))
    (outs : List Outcome) (v : Volt (Fin n)) (t : OneTuner X n) :
    (isTunedTrace I parts outs v t).head? = some t ∧
    ∀ t' b, isTuned (Newton.solver I lstsq) outs v t = (t', .ok b) →
      ∃ w ∈ (isTunedTrace I parts outs v t).getLast?, t' = if b then { w with tunedVoltages := w.tunedVoltages ++ [v] } else w := by
  refine ⟨by simp [isTunedTrace], fun t' b h => ?_⟩
  have htgt : (Newton.solver I lstsq).target t.solver = t.solver.target := rfl
  unfold isTuned at h
  unfold isTunedTrace
  simp only [htgt] at h
  by_cases hq : t.queued ≠ 0
  · rw [if_pos hq] at h ⊢
    cases h
    exact ⟨_, rfl, rfl⟩
  · rw [if_neg hq] at h ⊢
    rcases he : evaluate t.solver.target outs with err | ⟨p, vars⟩
    · rw [he] at h
      cases h
    · rw [he] at h
      simp only at h ⊢
      rcases h1 : (rescaleValues t.solver.target p).select t.lastValues.index with err | lv
      · rw [h1] at h
        cases h
      · rw [h1] at h
        simp only at h ⊢
        rcases h2 : (rescaleVariances t.solver.target vars).select lv.index with err | lvar
        · rw [h2] at h
          cases h
        · rw [h2] at h
          simp only at h ⊢
          by_cases hn : lv.any (fun e => e.2.isNone) = true
          · rw [if_pos hn] at h ⊢
            cases h
            exact ⟨_, rfl, rfl⟩
          · rw [if_neg hn] at h ⊢
            have hupd : (Newton.solver I lstsq).update v (rescaleValues t.solver.target p) (rescaleVariances t.solver.target vars) t.solver =
                Newton.update I v (rescaleValues t.solver.target p) (rescaleVariances t.solver.target vars) t.solver := rfl
            rw [hupd] at h
            unfold Newton.update at h
            unfold updateTrace
            rcases h3 : (rescaleValues t.solver.target p).select t.solver.values.index with err | vals
            · rw [h3] at h
              cases h
            · rw [h3] at h
              simp only at h ⊢
              rcases h4 : Newton.feed I t.solver.target v t.solver.ests vals ((rescaleVariances t.solver.target vars).map Prod.snd) with ⟨es, err | _⟩
              · rw [h4] at h
                cases h
              · rw [h4] at h
                simp only at h ⊢
                refine ⟨{ t with
                  lastVoltage := v, lastValues := lv, lastVariances := lvar, lastFailed := false, evaluatable := t.evaluatable ++ [v]
                  solver := { t.solver with ests := es, pos := v, values := vals } },
                  by simp only [List.map_append, List.map_cons, List.map_nil, List.getLast?_cons, List.getLast?_append, Option.getD_some,
                    Option.getD_none, Option.mem_def, List.getLast?_nil, Option.some_or], ?_⟩
                split at h <;> cases h <;> rfl

/-- The states inside of a suggestion are those of `get_next_voltages`: they begin with that before the call, and they end with that after it, except for the last
decrement of the number of queued steps. -/
theorem inside_next {X : Type} (I : Newton.EstI X (Fin n)) (lstsq : Newton.Lstsq (Fin n)) (t : OneTuner X n) :
    (nextTrace I lstsq t).head? = some t ∧
    ∀ t' v, nextVoltages (Newton.solver I lstsq) [] t = (t', .ok v) →
      ∃ w ∈ (nextTrace I lstsq t).getLast?, t' = w ∨ t' = { w with queued := w.queued - 1 } := by
  classical
  refine ⟨by simp [nextTrace], fun t' v h => ?_⟩
  have hsug : (Newton.solver I lstsq).suggest [] t.solver = Newton.suggest I lstsq [] t.solver := rfl
  unfold nextVoltages at h
  unfold nextTrace
  by_cases hf : t.lastFailed = true
  · rw [if_pos hf] at h ⊢
    split at h <;> cases h
    exact ⟨_, rfl, .inl rfl⟩
  · rw [if_neg hf] at h ⊢
    rw [hsug] at h
    rcases hs : Newton.suggest I lstsq [] t.solver with ⟨s, err | sug⟩
    · rw [hs] at h
      cases h
    · rw [hs] at h
      simp only at h ⊢
      unfold slice at h
      rcases hn : Tuner.norm (vsub (overlay t.lastVoltage sug) t.lastVoltage) with _ | a
      · rw [hn] at h
        simp only at h
        cases h
        exact ⟨_, rfl, .inl rfl⟩
      · rcases hm : t.maxStep with _ | M
        · rw [hn, hm] at h
          simp only at h
          cases h
          exact ⟨_, rfl, .inl (by simp [hm])⟩
        · rw [hn, hm] at h
          simp only at h ⊢
          by_cases hl : M < a
          · rw [if_pos hl] at h
            by_cases h0 : t.queued = 0 ∧ M = 0
            · rw [if_pos h0] at h
              cases h
            · rw [if_neg h0] at h
              simp only at h
              cases h
              by_cases hq : t.queued = 0
              · rw [if_pos ⟨hl, hq, fun hM => h0 ⟨hq, hM⟩⟩]
                exact ⟨_, rfl, .inr (by simp [hq, hm])⟩
              · rw [if_neg fun hc => hq hc.2.1]
                exact ⟨_, rfl, .inr (by simp [hq, hm])⟩
          · rw [if_neg hl] at h
            simp only at h
            cases h
            rw [if_neg fun hc => hl hc.1]
            exact ⟨_, rfl, .inl (by simp [hm])⟩

/-- The variance along the step after a measurement. -/
theorem update_variance {f : KG 1 n} (hs : Static f) (hP : f.P.PosSemidef) (d : Fin n → ℝ) (z : ℝ) {r : ℝ} (hr : 0 < r) :
    ∃ f', f.update d (fun _ => z) (some (r • 1)) none true = (f', .ok ()) ∧ Static f' ∧ f'.P.PosSemidef ∧
      wide d ⬝ᵥ (f'.P *ᵥ wide d) =
        wide d ⬝ᵥ (f.P *ᵥ wide d) - (wide d ⬝ᵥ (f.P *ᵥ wide d)) ^ 2 / (wide d ⬝ᵥ (f.P *ᵥ wide d) + r) := by
  have hR : ((some (r • (1 : Matrix (Fin 1) (Fin 1) ℝ))).getD f.R).PosDef := scalar_posDef hr
  have hu := (update_static hs ⟨d, fun _ => z, some (r • 1), none, true⟩ rfl).trans (correct_ok hP hR _ _)
  refine ⟨_, hu, ⟨hs.F, hs.Q, hs.alpha⟩, ?_, ?_⟩
  · have := (feed_ok f hP (by rw [hs.Q]; exact PosSemidef.zero) d (fun _ => z) hr).2.1
    rwa [hu] at this
  · set H := matrixH 1 d with hH
    set S := f.innovation (r • 1) H with hS
    have hH0 : ∀ j, H 0 j = wide d j := fun j => congrFun (matrixH_one d 0) j
    have hPH : ∀ j, (f.P * Hᵀ) j 0 = (f.P *ᵥ wide d) j := fun j => by
      simp [mul_apply, mulVec, dotProduct, hH0]
    have hS0 : S 0 0 = wide d ⬝ᵥ (f.P *ᵥ wide d) + r := by
      simp only [hS, Filter.innovation, Matrix.add_apply, Matrix.smul_apply, one_apply_eq, smul_eq_mul, mul_one]
      rw [mul_apply]
      simp only [hPH, hH0, dotProduct]
    have hSinv : S⁻¹ 0 0 = (wide d ⬝ᵥ (f.P *ᵥ wide d) + r)⁻¹ := by
      have h1 : S⁻¹ * S = 1 :=
        nonsing_inv_mul S ((isUnit_iff_isUnit_det _).1 (innovation_posDef hP hR H).isUnit)
      have h2 := congrFun (congrFun h1 0) 0
      rw [mul_apply, Fin.sum_univ_one, one_apply_eq, hS0] at h2
      exact eq_inv_of_mul_eq_one_left h2
    set V := wide d ⬝ᵥ (f.P *ᵥ wide d) with hV
    show wide d ⬝ᵥ ((f.P - f.P * Hᵀ * S⁻¹ * H * f.P) *ᵥ wide d) = _
    have hvec : (f.P * Hᵀ * S⁻¹ * H * f.P) *ᵥ wide d = (V / (V + r)) • (f.P *ᵥ wide d) := by
      funext j
      rw [← mulVec_mulVec, ← mulVec_mulVec]
      have hHP : (H *ᵥ (f.P *ᵥ wide d)) 0 = V := by
        simp only [mulVec, dotProduct, hH0, hV]
      rw [mulVec, dotProduct, Fin.sum_univ_one, hHP, mul_apply, Fin.sum_univ_one, hPH, hSinv]
      simp only [Pi.smul_apply, smul_eq_mul]
      ring
    rw [sub_mulVec, dotProduct_sub, hvec, dotProduct_smul, ← hV, smul_eq_mul]
    ring

/-- **C213 is false for an interruption between the two assignments** at the end of the update of a Kalman estimator: then the estimator has the new value and
the old position.  The next call of `iterate` measures at the same voltages again, and the estimator takes it that nothing has changed on the way from the old
position: of the true change `g · d` along the last step `d` it retains only the part `r' / (V r / (V + r) + r')`, where `V` is the variance along the step
before and `r`, `r'` are those of the two measurements.  So the true gradient is lost for every step along which the estimator is uncertain and the value changes. -/
theorem torn_update_refuted {g : Fin n → ℝ} {b : ℝ} {p : Fin n → ℝ} {e : Est n} (h : Knows g b p e)
    (q : Fin n → ℝ) (hstep : 1 / 10000000 ≤ Real.sqrt (∑ i, (q i - p i) ^ 2)) {r r' : ℝ} (hr : 0 < r) (hr' : 0 < r') :
    ∃ e₁ e₂, valuePart (volts q) (some (b + ∑ i, g i * q i)) (some r) e = [e₁] ∧
      e₁.update (volts q) (b + ∑ i, g i * q i) r' true = (e₂, .ok ()) ∧
      ∑ i, e₂.estimate i * (q i - p i) =
        r' / (variance e.cov (fun i => q i - p i) * r / (variance e.cov (fun i => q i - p i) + r) + r') * ∑ i, g i * (q i - p i) ∧
      (0 < variance e.cov (fun i => q i - p i) → ∑ i, g i * (q i - p i) ≠ 0 → e₂.estimate ≠ g) := by
  set d : Fin n → ℝ := fun i => q i - p i with hd
  set V := variance e.cov d with hV
  have hV0 : 0 ≤ V := cov_nonneg h.psd d
  obtain ⟨f', hf', hs', hP', hvar'⟩ := update_variance h.static h.psd d (b + ∑ i, g i * q i - (b + ∑ i, g i * p i)) hr
  obtain ⟨f'', hf'', hx⟩ := update_x h.static h.psd d (b + ∑ i, g i * q i - (b + ∑ i, g i * p i)) hr
  rw [hf'] at hf''
  obtain rfl : f' = f'' := (Prod.mk.inj hf'').1
  have hgd : ∑ i, g i * d i = ∑ i, g i * q i - ∑ i, g i * p i := by
    rw [← Finset.sum_sub_distrib]
    exact Finset.sum_congr rfl fun i _ => by rw [hd]; ring
  have hxg : e.filter.x = wide g := by
    funext j
    rw [← h.exact_]
    unfold Est.estimate KG.grad wide
    congr 1
    exact Fin.ext (by simp)
  have hdx : wide d ⬝ᵥ e.filter.x = ∑ i, g i * d i := by
    rw [hxg, ← wide_sum fun j => g j * d j]
    unfold dotProduct
    exact Finset.sum_congr rfl fun j _ => by simp only [wide]; ring
  have hxx : f'.x = e.filter.x := by
    rw [hx, hdx, hgd]
    simp
  have hfull : e.update (volts q) (b + ∑ i, g i * q i) r true =
      ({ e with filter := f', value := some (b + ∑ i, g i * q i), pos := volts q }, .ok ()) := by
    unfold Est.update
    simp only [h.value, h.pos]
    have hdiff : ∀ i, Val.sub (volts q i) (some (p i)) = some (d i) := fun i => rfl
    simp only [hdiff, Option.getD_some]
    have hex : ¬ ∃ i : Fin n, (some (d i) : Val) = none := by rintro ⟨i, hi⟩; cases hi
    rw [if_neg (not_lt.2 hstep), if_neg hex, hf']
    rfl
  set e' : Est n := { e with filter := f', value := some (b + ∑ i, g i * q i), pos := volts q } with he'
  have hknows : Knows g b q e' := by
    refine ⟨hs', hP', rfl, rfl, ?_⟩
    rw [← h.exact_]
    funext i
    unfold Est.estimate KG.grad
    rw [he', hxx]
  obtain ⟨e₂, h2, hest⟩ := after_change_position hknows p q hstep hr' true
  have hcv : ∀ E : Est n, wide d ⬝ᵥ (E.filter.P *ᵥ wide d) = variance E.cov d := by
    intro E
    have hcov : ∀ a : Fin n, (E.filter.P *ᵥ wide d) (a.cast (one_mul n).symm) = ∑ j, E.cov a j * d j := by
      intro a
      rw [mulVec, dotProduct, ← wide_sum fun j => E.cov a j * d j]
      refine Finset.sum_congr rfl fun j _ => ?_
      simp [wide, Est.cov]
    unfold variance dotProduct
    rw [← wide_sum fun i => ∑ j, d i * E.cov i j * d j]
    refine Finset.sum_congr rfl fun j _ => ?_
    have := hcov (j.cast (one_mul n))
    simp only [Fin.cast_cast, Fin.cast_eq_self] at this
    rw [this]
    simp only [wide]
    rw [Finset.mul_sum]
    exact Finset.sum_congr rfl fun a _ => by ring
  have hV' : variance e'.cov d = V * r / (V + r) := by
    have hne : V + r ≠ 0 := by positivity
    rw [← hcv, hvar', hcv e, ← hV]
    field_simp
    ring
  have hsum : ∑ i, e₂.estimate i * d i = r' / (V * r / (V + r) + r') * ∑ i, g i * d i := by
    have h1 : ∀ i, e₂.estimate i * d i = g i * d i + (∑ j, g j * p j - ∑ j, g j * q j) / (variance e'.cov d + r') * ∑ j, d i * e'.cov i j * d j := by
      intro i
      rw [hest i, add_mul, mul_assoc, Finset.sum_mul]
      congr 2
      exact Finset.sum_congr rfl fun j _ => by rw [hd]; ring
    have h3 : ∑ i, ∑ j, d i * e'.cov i j * d j = variance e'.cov d := rfl
    rw [Finset.sum_congr rfl fun i _ => h1 i, Finset.sum_add_distrib, ← Finset.mul_sum, h3,
      show ∑ j, g j * p j - ∑ j, g j * q j = -∑ i, g i * d i by rw [hgd]; ring, hV']
    have hne : V + r ≠ 0 := by positivity
    have hne2 : V * r / (V + r) + r' ≠ 0 := by positivity
    generalize V * r / (V + r) = a at hne2 ⊢
    field_simp
    ring
  refine ⟨e'.changePosition fun i => some (p i), e₂, ?_, h2, hsum, ?_⟩
  · unfold valuePart
    simp only [Option.getD_some]
    rw [hfull]
    simp only [Est.changePosition, h.pos]
  · intro hpos hne heq
    rw [heq] at hsum
    have hlt : r' / (V * r / (V + r) + r') < 1 := by
      have : 0 < V * r / (V + r) := by positivity
      rw [div_lt_one (by positivity)]
      linarith
    have : (1 - r' / (V * r / (V + r) + r')) * ∑ i, g i * d i = 0 := by linarith
    rcases mul_eq_zero.1 this with h0 | h0
    · linarith
    · exact hne h0

/-- The seventh state inside of the evaluation of one parameter: the update of its estimator has begun. -/
theorem seventh_state {X : Type} {S : Setup n 1} (hS : S.Sound) {μ : Val × Int} {I : Newton.EstI X (Fin n)}
    {parts : Volt (Fin n) → Val → Val → X → List X} {e : X} {t : OneTuner X n} (h : Base S μ (fun _ => e) t) (q : Vec n) :
    ∃ y ∈ S.seen 0, ∀ e₁ l, parts (volts q) (some (S.scaled 0 q)) (some y) e = e₁ :: l →
      ∃ w, (isTunedTrace I parts (S.outs (volts q)) (volts q) t)[6]? = some w ∧ Base S μ (fun _ => e₁) w := by
  obtain ⟨y, hyv, hy⟩ := hS.evaluators q
  have hy' : evaluate S.target (S.outs (volts q)) = _ := hy
  obtain ⟨hr1, hr2⟩ := Setup.rescaled hS q y
  obtain ⟨vals, hvals⟩ : ∃ vals : Series,
    vals = List.ofFn fun k => ((S.row k).name, some (S.scaled k q)) := ⟨_, rfl⟩
  obtain ⟨vars, hvars⟩ : ∃ vars : Series,
    vars = List.ofFn fun k => ((S.row k).name, some (y k / (S.scale k * S.scale k))) := ⟨_, rfl⟩
  rw [← hvals] at hr1
  rw [← hvars] at hr2
  have hidx : vals.index = S.target.names := by
    rw [S.names_eq]
    simp [hvals, Series.index]
  have hidx' : vars.index = S.target.names := by
    rw [S.names_eq]
    simp [hvars, Series.index]
  have hsel1 : vals.select t.lastValues.index =
      .ok (t.lastValues.index.map fun l => (l, vals.val l)) :=
    select_sub (by rw [hidx]; exact h.lastIndex)
  have hsel2 : vars.select t.lastValues.index =
      .ok (t.lastValues.index.map fun l => (l, vars.val l)) :=
    select_sub (by rw [hidx']; exact h.lastIndex)
  have hsel : vals.select S.target.names = .ok vals := by
    rw [hvals]
    exact Setup.select hS _
  have hlast : Series.index (t.lastValues.index.map fun l => (l, vals.val l)) ⊆ S.target.names := by
    rw [Series.index_map_mk]
    exact h.lastIndex
  have hvalk : ∀ l ∈ S.target.names, vals.val l ≠ none := by
    intro l hl
    rw [S.names_eq] at hl
    obtain ⟨k, rfl⟩ := (List.mem_ofFn' _ _).1 hl
    rw [hvals, Setup.val_ofFn hS (fun k => some (S.scaled k q)) k]
    simp
  have hany : ((t.lastValues.index.map fun l => (l, vals.val l)).any fun e => e.2.isNone) = false := by
    rw [List.any_eq_false]
    intro x hx
    obtain ⟨l, hl, rfl⟩ := List.mem_map.1 hx
    have := hvalk l (h.lastIndex hl)
    simpa using this
  refine ⟨y 0 / (S.scale 0 * S.scale 0), ⟨y 0, hyv 0, rfl⟩, fun e₁ l hparts => ?_⟩
  have hdes : (S.row 0).desired.isNone = false := by
    rw [hS.desired 0]
    rfl
  have hfeed : feedTrace I parts S.target (volts q) (List.ofFn fun _ : Fin 1 => e) vals (vars.map Prod.snd) =
      [e₁] :: (l.map (· :: []) ++
        match I.update (volts q) (some (S.scaled 0 q)) (some (y 0 / (S.scale 0 * S.scale 0))) e with
        | (_, .error _) => []
        | (e', .ok ()) => [e'] :: (feedTrace I parts S.target (volts q) [] [] []).map (e' :: ·)) := by
    rw [hvals, hvars]
    simp only [List.ofFn_succ, List.ofFn_zero, List.map_cons, List.map_nil]
    rw [feedTrace]
    simp only [Setup.row? hS 0, hdes, Bool.false_eq_true, if_false, hparts, List.map_cons, List.cons_append]
    rfl
  refine ⟨{ t with
    lastVoltage := volts q, lastValues := t.lastValues.index.map fun l => (l, vals.val l)
    lastVariances := t.lastValues.index.map fun l => (l, vars.val l)
    lastFailed := false, evaluatable := t.evaluatable ++ [volts q], solver := { t.solver with ests := [e₁] } }, ?_,
    ⟨h.target, by simp, h.gates, h.index, h.maxStep, h.maxNumber, h.queued, hlast⟩⟩
  unfold isTunedTrace
  rw [if_neg (by simp [h.queued]), h.target]
  simp only [hy', hr1, hr2, hsel1, Series.index_map_mk, hsel2, hany, Bool.false_eq_true, if_false]
  unfold updateTrace
  rw [h.index, hsel]
  simp only
  rw [h.target, h.ests, hfeed]
  rfl

/-- **C213 is false for an interruption between the two assignments**, in a tuning: an evaluation of one parameter by an estimator that knows its gradient is
interrupted there, and the next call is not interrupted.  Then the estimator has lost the gradient, if the value at the present voltages is another one than that
at the voltages before, and if it was uncertain along the last step. -/
theorem torn_evaluation_refuted {S : Setup n 1} (hS : S.Valid) (hpos : ∀ y ∈ S.variances, 0 < y)
    (eigh : Eigh) (nullspace : Nullspace) (lstsq : Newton.Lstsq (Fin n)) {μ : Val × Int} {e : Est n} {t : OneTuner (Est n) n}
    (hbase : Base S μ (fun _ => e) t) {b : ℝ} (hb : ∀ v, S.scaled 0 v = b + ∑ i, S.grad 0 i / S.scale 0 * v i) {p c : Vec n}
    (hk : Knows (fun i => S.grad 0 i / S.scale 0) b p e) (hstep : 1 / 10000000 ≤ Real.sqrt (∑ i, (c i - p i) ^ 2))
    (hunc : 0 < variance e.cov fun i => c i - p i) (hchange : S.scaled 0 c ≠ S.scaled 0 p) :
    ∃ e₂, (leaves (kalmanI eigh nullspace) valuePart lstsq S.outs (fresh t (volts c)) [.inside 6, .whole (.ok ())]).tuners.solver.ests = [e₂] ∧
      e₂.estimate ≠ fun i => S.grad 0 i / S.scale 0 := by
  have hy0 : ∀ y ∈ S.seen 0, 0 < y := by
    rintro y ⟨v, hv, rfl⟩
    exact div_pos (hpos v hv) (mul_self_pos.2 (hS.scale 0).2)
  have hne : ∑ i, S.grad 0 i / S.scale 0 * (c i - p i) ≠ 0 := by
    intro h0
    apply hchange
    rw [hb, hb]
    have : ∑ i, S.grad 0 i / S.scale 0 * c i - ∑ i, S.grad 0 i / S.scale 0 * p i = 0 := by
      rw [← Finset.sum_sub_distrib, ← h0]
      exact Finset.sum_congr rfl fun i _ => by ring
    linarith
  obtain ⟨y, hy, hseven⟩ := seventh_state (I := kalmanI eigh nullspace) (parts := valuePart) hS.toSound hbase c
  obtain ⟨e₁, -, h1, -⟩ := torn_update_refuted hk c hstep (hy0 y hy) (hy0 y hy)
  rw [← hb c] at h1
  obtain ⟨w, hw, hbw⟩ := hseven e₁ [] h1
  have hup : ∀ y' ∈ S.seen 0, ∃ e₂, (kalmanI eigh nullspace).update (volts c) (some (S.scaled 0 c)) (some y') e₁ = (e₂, .ok ()) ∧
      e₂.estimate ≠ fun i => S.grad 0 i / S.scale 0 := by
    intro y' hy'
    obtain ⟨e₁', e₂, h1', h2, -, h4⟩ := torn_update_refuted hk c hstep (hy0 y hy) (hy0 y' hy')
    rw [← hb c] at h1' h2
    obtain rfl : e₁ = e₁' := by
      rw [h1] at h1'
      exact (List.cons.inj h1').1
    exact ⟨e₂, h2, h4 hunc hne⟩
  have hfin : ∀ k : Fin 1, k = 0 := fun k => Subsingleton.elim _ _
  obtain ⟨y', t', b', hev, hy', hAt, -⟩ := evaluation (lstsq := lstsq) (I := kalmanI eigh nullspace) hS.toSound hbw c
    (fun k y' hy' => by
      obtain rfl := hfin k
      obtain ⟨e₂, h, -⟩ := hup y' hy'
      exact ⟨e₂, h⟩)
  obtain ⟨e₂, h2, h3⟩ := hup (y' 0) (hy' 0)
  refine ⟨e₂, ?_, h3⟩
  have hests := hAt.ests
  simp only [List.ofFn_succ, List.ofFn_zero, h2] at hests
  have hfirst : leave (kalmanI eigh nullspace) valuePart lstsq S.outs (fresh t (volts c)) (.inside 6) = fresh w (volts c) := by
    simp [leave, fresh, isComplete, hierarchy, hw]
  simp only [leaves, List.foldl_cons, List.foldl_nil, hfirst]
  cases b' <;> simp [leave, iterate, fresh, hierarchy, isComplete, finish, hev, hests]

/-! ### Cases that meet the hypotheses -/

/-- An estimator with gradient 2 and variance 1 that has measured the value 1 at the voltage 0 (and so on: the response is `1 + 2 x`). -/
noncomputable def tornEst : Est 1 :=
  ⟨KG.new none (some fun _ => 2) (some 1) none none 1, fun _ => some 0, some 1, fun _ => .fin 2, fun _ => 1⟩

/-- It knows the gradient; after an update at the voltage 1 with variance 1 that is torn, and its repetition, it has the estimate 4/3. -/
example : Knows (fun _ => 2) 1 (fun _ => 0) tornEst ∧ (1 / 10000000 : ℝ) ≤ Real.sqrt (∑ _ : Fin 1, ((1 : ℝ) - 0) ^ 2) ∧
    0 < variance tornEst.cov (fun _ => (1 : ℝ) - 0) ∧ ∑ _ : Fin 1, (2 : ℝ) * (1 - 0) ≠ 0 ∧
    ∃ e₁ e₂, valuePart (volts fun _ : Fin 1 => 1) (some 3) (some 1) tornEst = [e₁] ∧ e₁.update (volts fun _ => 1) 3 1 true = (e₂, .ok ()) ∧
      e₂.estimate 0 = 4 / 3 := by
  have hk : Knows (fun _ => 2) 1 (fun _ => 0) tornEst := by
    refine ⟨⟨rfl, rfl, rfl⟩, ?_, rfl, by simp [tornEst], rfl⟩
    exact PosSemidef.one
  have hv : variance tornEst.cov (fun _ => (1 : ℝ) - 0) = 1 := by
    simp [variance, Est.cov, tornEst, KG.new]
  have hstep : (1 / 10000000 : ℝ) ≤ Real.sqrt (∑ _ : Fin 1, ((1 : ℝ) - 0) ^ 2) := by
    simp
    norm_num
  obtain ⟨e₁, e₂, h1, h2, h3, -⟩ := torn_update_refuted hk (fun _ => 1) hstep (r := 1) (r' := 1) one_pos one_pos
  have h3v : (1 : ℝ) + ∑ i : Fin 1, 2 * 1 = 3 := by
    simp
    norm_num
  rw [h3v] at h1 h2
  rw [hv] at h3
  refine ⟨hk, hstep, by rw [hv]; exact one_pos, by simp, e₁, e₂, h1, h2, ?_⟩
  simp at h3
  rw [h3]
  norm_num

/-- The hypotheses on the tuner with Kalman estimators; those on the tuner with finite differences and those on step sizes are met in `PropsStopped.lean` and
`PropsStoppedSteps.lean`. -/
example : KalmanInitial sampleSetup 1 { knownTuner with maxStep := none } := by
  refine ⟨rfl, ⟨fun _ => knownEst, rfl, fun k => ⟨⟨⟨rfl, rfl, rfl⟩, ?_, ?_, rfl, ?_⟩, .inl rfl⟩⟩, rfl, rfl,
    by simp [knownTuner, Series.index], rfl⟩
  · funext i
    fin_cases i <;> simp [knownEst, Est.estimate, KG.grad, KG.new, sampleSetup] <;> norm_num
  · exact Matrix.PosSemidef.one.smul (by norm_num)
  · intro v hv
    have h : variance knownEst.cov v = 1 / 2 * ∑ i, v i ^ 2 := by
      simp [variance, Est.cov, knownEst, KG.new, Fin.sum_univ_two, Matrix.one_apply]
      ring
    rw [h, hv]
    norm_num

/-- The estimator of `knownTuner`, after a measurement at the voltages 0. -/
noncomputable def knownAtZero : Est 2 := { knownEst with pos := volts 0, value := some (sampleSetup.scaled 0 0) }

/-- The hypotheses of `torn_evaluation_refuted`: a step from the voltages 0 to the voltages 80. -/
example : ∃ b : ℝ, Base sampleSetup (some 1, 5) (fun _ => knownAtZero) { knownTuner with solver := { knownTuner.solver with ests := [knownAtZero] } } ∧
    (∀ v, sampleSetup.scaled 0 v = b + ∑ i, sampleSetup.grad 0 i / sampleSetup.scale 0 * v i) ∧
    Knows (fun i => sampleSetup.grad 0 i / sampleSetup.scale 0) b 0 knownAtZero ∧
    1 / 10000000 ≤ Real.sqrt (∑ i : Fin 2, ((fun _ => 80 : Vec 2) i - (0 : Vec 2) i) ^ 2) ∧
    0 < variance knownAtZero.cov (fun i => (fun _ => 80 : Vec 2) i - (0 : Vec 2) i) ∧
    sampleSetup.scaled 0 (fun _ => 80) ≠ sampleSetup.scaled 0 0 := by
  obtain ⟨b, hb⟩ := Setup.scaled_affine (S := sampleSetup) sampleSetup_valid.affine 0
  refine ⟨b, ⟨rfl, by simp, rfl, rfl, rfl, rfl, rfl, by simp [knownTuner, Series.index]⟩, hb, ⟨⟨rfl, rfl, rfl⟩, ?_, rfl, ?_, ?_⟩, ?_, ?_, ?_⟩
  · exact Matrix.PosSemidef.one.smul (by norm_num)
  · show some (sampleSetup.scaled 0 0) = _
    rw [hb]
  · funext i
    fin_cases i <;> simp [knownAtZero, knownEst, Est.estimate, KG.grad, KG.new, sampleSetup] <;> norm_num
  · apply Real.le_sqrt_of_sq_le
    simp [Fin.sum_univ_two]
    norm_num
  · simp [variance, Est.cov, knownAtZero, knownEst, KG.new, Fin.sum_univ_two, Matrix.one_apply]
  · rw [hb, hb]
    simp [sampleSetup, Fin.sum_univ_two]
    norm_num

end Qtune.EndToEnd
