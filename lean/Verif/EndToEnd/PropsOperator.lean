import Verif.EndToEnd.OperatorRun

/-!
# End to end: an operator intervenes

`Session` (`OperatorSpec`): between the calls of `iterate`, the gate voltages are changed by hand and `restart` is
called, or the targets are changed with `change_targets`, as often and whenever the operator wants.
-/

namespace Qtune.EndToEnd

open Matrix Qtune.Tuner Qtune.Gradient Qtune.Autotuner Qtune.Kalman Qtune.TargetOps

variable {n m K : Nat}

/-- What an operator relies on in the state `s` with the targets `P`: no call raises an exception, except for
`iterate` when the tuning is complete; when it is complete, all set points are met; it will be complete within
`N` calls of `iterate`. -/
structure Undisturbed {X : Type} (I : Newton.EstI X (Fin n)) (reset : Volt (Fin n) → X → X)
    (lstsq : Newton.Lstsq (Fin n)) (outs : Nat → Volt (Fin n) → List Outcome) (N : Nat) (P : Plan n m K)
    (s : Autotuner.State (Shared X n) (Volt (Fin n)) (Volt (Fin n))) : Prop where
  iterate : isComplete (operated I reset lstsq K outs) s = false →
    (iterate (operated I reset lstsq K outs) (.ok ()) s).2.2 = .ok ()
  restart : ∀ v : Vec n,
    (restart (operated I reset lstsq K outs) { s with expt := fun i => some (v i) }).2.2 = .ok ()
  changeTargets : ∀ cs P', P.Retargets cs P' →
    (changeTargets (operated I reset lstsq K outs) cs s).2.2 = .ok ()
  complete : isComplete (operated I reset lstsq K outs) s = true →
    ∃ q : Vec n, s.expt = (fun i => some (q i)) ∧ ∀ i < K, P.Met i q
  finishes : ∃ M ≤ N, ∃ s', iterates (operated I reset lstsq K outs) M s = .ok s' ∧
    isComplete (operated I reset lstsq K outs) s' = true ∧
    ∃ q : Vec n, s'.expt = (fun i => some (q i)) ∧ ∀ i < K, P.Met i q

theorem undisturbed {X : Type} {P₀ : Plan n m K} (hP : P₀.Valid) {I : Newton.EstI X (Fin n)}
    {lstsq : Newton.Lstsq (Fin n)} (hl : Newton.LstsqSpec lstsq) {G A : Fin m → X → Prop}
    (hI : ∀ k, Knows P₀ I k (G k) (A k)) {reset : Volt (Fin n) → X → X}
    (hG : ∀ v k e, G k e → G k (reset v e)) (hA : ∀ v k e, A k e → A k (reset v e)) (c : Vec n)
    {w : Shared X n} {E : Fin m → X} (hests : w.ests = List.ofFn E) (hE : ∀ k, G k (E k))
    (ht : ∀ i < K, P₀.Tuner i (w.tuners i)) (hmax : ∀ i < K, (w.tuners i).maxStep = none)
    {P : Plan n m K} {s : World' X n} (h : Session I reset lstsq P₀ (fresh w (volts c)) P s) :
    Undisturbed I reset lstsq P₀.outs (K + 2 + (4 * K + K * (K - 1) / 2)) P s := by
  obtain ⟨hv, hsame, q, E', hb⟩ := h.between hP hl hI hG hA
    (lim := fun i => ((w.tuners i).maxStep, (w.tuners i).maxNumber)) hmax (q₀ := c) (E₀ := E)
    ⟨⟨hests, hE, fun j hj => ⟨ht j hj, rfl, rfl⟩⟩, rfl, Nat.zero_le _, by simp [fresh], by simp [fresh],
      by simp [fresh], by simp [fresh]⟩
  have hI' := fun k => (hI k).sameDevice hsame
  have hcomp : ∀ s : World' X n, isComplete (operated I reset lstsq K P₀.outs) s = true ↔ s.index = K := by
    intro s
    simp [isComplete, operated, multiHierarchy]
  refine ⟨fun hc => ?_, fun v => (hb.restart hG hA v).1, fun cs P' hc => (hb.changeTargets hv hc).1,
    fun hc => ?_, ?_⟩
  · have hi : s.index ≠ K := fun hi => by
      have := (hcomp s).2 hi
      rw [hc] at this
      cases this
    obtain ⟨-, -, -, -, h2, -⟩ := hb.iterate hv hl hI' hmax (lt_of_le_of_ne hb.index hi)
    rw [operated_iterate, ← hsame.outs]
    exact h2
  · exact ⟨q, hb.expt, fun i hi => hb.met i (by rw [(hcomp s).1 hc]; exact hi)⟩
  · obtain ⟨M, hM, s', hit, hc, hq⟩ := hb.finishes hv hl hI' hmax
    refine ⟨M, hM, s', ?_, ?_, hq⟩
    · rw [operated_iterates, ← hsame.outs]
      exact hit
    · rw [hcomp]
      simpa [isComplete, multiHierarchy] using hc

/-- **C135**, Kalman estimators, tuners without maximal step size.  In the situation of C119 an operator may
change the gate voltages by hand and restart the autotuner, and change desired values and tolerances, at any
time and as often as they want: no call raises an exception, and if they leave the autotuner alone, the tuning
is complete after at most `K + 2 + (4 * K + K * (K - 1) / 2)` calls of `iterate` and the voltages meet the current
set points of all tuners.  Missing: tuners with a maximal step size, see
`operator_may_intervene_refuted`. -/
theorem operator_may_intervene_partial {P₀ : Plan n m K} (hP : P₀.Valid) (hpos : ∀ y ∈ P₀.variances, 0 < y)
    {eigh : Eigh} (heigh : EighSpec eigh) {nullspace : Nullspace} (hnull : NullspaceSpec nullspace)
    {lstsq : Newton.Lstsq (Fin n)} (hl : Newton.LstsqSpec lstsq) (c : Vec n) {w : Shared (Est n) n} {l : ℝ}
    (hl0 : 0 < l) {E : Fin m → Est n} (hests : w.ests = List.ofFn E)
    (hE : ∀ k, Certain (fun i => P₀.grad k i / P₀.scale k) l (E k) ∧
      ((E k).value = none ∨ Measured (fun v => P₀.response k v / P₀.scale k) (E k)))
    (ht : ∀ i < K, P₀.Tuner i (w.tuners i)) (hmax : ∀ i < K, (w.tuners i).maxStep = none)
    {P : Plan n m K} {s : World' (Est n) n}
    (h : Session (kalmanI eigh nullspace) Est.restart lstsq P₀ (fresh w (volts c)) P s) :
    Undisturbed (kalmanI eigh nullspace) Est.restart lstsq P₀.outs (K + 2 + (4 * K + K * (K - 1) / 2)) P s := by
  refine undisturbed hP hl
    (G := fun k e => Certain (fun i => P₀.grad k i / P₀.scale k) l e ∧ (e.value = none ∨ Measured (P₀.scaled k) e))
    (A := fun k e => (Certain (fun i => P₀.grad k i / P₀.scale k) l e ∧
      (e.value = none ∨ Measured (P₀.scaled k) e)) ∧ ∃ p, e.pos = volts p)
    (fun k => ?_) (fun v k e he => ?_) (fun v k e he => ?_) c hests hE ht hmax h
  · have hk := kalman_knows hP hpos heigh hnull hl0 k
    refine ⟨hk.gradient, fun e he q y hy => ?_, fun e he => he.1, fun e he tj => ?_⟩
    · obtain ⟨e', he', h1, h2⟩ := hk.update e he q y hy
      exact ⟨e', he', ⟨h1, .inr h2⟩, h2.choose, h2.choose_spec.1⟩
    · obtain ⟨h1, p, hp⟩ := he
      exact certain_silent_at hl0 h1.1 hp heigh hnull (hP.gates_nodup _) (P₀.gates_ne hP k) tj
  · obtain ⟨h1, -⟩ := he
    exact ⟨⟨h1.static, h1.gradient, h1.psd, h1.limit, h1.certain⟩, .inl rfl⟩
  · obtain ⟨⟨h1, -⟩, p, hp⟩ := he
    exact ⟨⟨⟨h1.static, h1.gradient, h1.psd, h1.limit, h1.certain⟩, .inl rfl⟩, p, hp⟩

/-- **C135**, finite difference estimators that have found the gradients; `restart` does not change them
(the setter of the position assigns nothing, gradient.py:45-48, 68-69). -/
theorem operator_may_intervene_fd_partial {P₀ : Plan n m K} (hP : P₀.Valid) {orth : Orth n}
    {lstsq : Newton.Lstsq (Fin n)} (hl : Newton.LstsqSpec lstsq) (c : Vec n) {w : Shared (FD n) n}
    {E : Fin m → FD n} (hests : w.ests = List.ofFn E)
    (hE : ∀ k, (E k).pos ≠ none ∧ ∃ C, (E k).estimate = some (fun i => some (P₀.grad k i / P₀.scale k), C))
    (ht : ∀ i < K, P₀.Tuner i (w.tuners i)) (hmax : ∀ i < K, (w.tuners i).maxStep = none)
    {P : Plan n m K} {s : World' (FD n) n}
    (h : Session (fdI orth) (fun _ e => e) lstsq P₀ (fresh w (volts c)) P s) :
    Undisturbed (fdI orth) (fun _ e => e) lstsq P₀.outs (K + 2 + (4 * K + K * (K - 1) / 2)) P s :=
  undisturbed hP hl (fd_knows P₀ orth) (fun _ _ _ h => h) (fun _ _ _ h => h) c hests
    (fun k => ⟨(hE k).1, (hE k).2⟩) ht hmax h

/-! ### Tuners with a maximal step size -/

/-- A tuner that has queued steps left while its step is not longer than the maximal step size goes on forever
with this step, without evaluating anything. -/
theorem queued_forever {X : Type} {P : Plan n m K} {I : Newton.EstI X (Fin n)}
    {lstsq : Newton.Lstsq (Fin n)} (hK : 0 < K)
    {q₀ x : Vec n} (hx : ∀ j, j ∉ P.gates 0 → x j = 0) {E : Fin m → X}
    (hs : ∀ (q : Vec n) (t : OneTuner X n) (tuned : List String), P.On 0 q₀ q t →
      t.solver.ests = List.ofFn E →
      Newton.suggest I lstsq tuned t.solver =
        (t.solver, .ok fun j => if j ∈ P.gates 0 then some (some ((q + x) j)) else none))
    {M : ℝ} (hshort : len x ≤ M) :
    ∀ (N : Nat) (w : Shared X n) (q q' : Vec n), w.ests = List.ofFn E → P.On 0 q₀ q' (w.tuners 0) →
      (w.tuners 0).queued ≠ 0 → (w.tuners 0).maxStep = some M →
      ∃ w', iterates (multiHierarchy I lstsq K P.outs) (3 * N) ⟨w, volts q, 0, false, none⟩ =
          .ok ⟨w', volts (q + (N : ℝ) • x), 0, false, none⟩ ∧
        ∃ w₁ w₂ : World' X n,
          iterates (multiHierarchy I lstsq K P.outs) (3 * N + 1) ⟨w, volts q, 0, false, none⟩ = .ok w₁ ∧ w₁.index = 0 ∧
          iterates (multiHierarchy I lstsq K P.outs) (3 * N + 2) ⟨w, volts q, 0, false, none⟩ = .ok w₂ ∧ w₂.index = 0 := by
  have step : ∀ (w : Shared X n) (q q' : Vec n), w.ests = List.ofFn E → P.On 0 q₀ q' (w.tuners 0) →
      (w.tuners 0).queued ≠ 0 → (w.tuners 0).maxStep = some M →
      ∃ w' w₁ w₂ : Shared X n,
        iterates (multiHierarchy I lstsq K P.outs) 3 ⟨w, volts q, 0, false, none⟩ =
          .ok ⟨w', volts (q + x), 0, false, none⟩ ∧
        iterates (multiHierarchy I lstsq K P.outs) 1 ⟨w, volts q, 0, false, none⟩ =
          .ok ⟨w₁, volts q, 0, true, none⟩ ∧
        iterates (multiHierarchy I lstsq K P.outs) 2 ⟨w, volts q, 0, false, none⟩ =
          .ok ⟨w₂, volts q, 0, false, some (volts (q + x))⟩ ∧
        w'.ests = List.ofFn E ∧ P.On 0 q₀ q (w'.tuners 0) ∧ (w'.tuners 0).queued ≠ 0 ∧
        (w'.tuners 0).maxStep = some M := by
    intro w q q' hests hon hq hM
    let t₂ : OneTuner X n := { w.get 0 with
      lastVoltage := volts q
      solver := { (w.get 0).solver with pos := volts q } }
    have hev : isTuned (Newton.solver I lstsq) (P.outs 0 (volts q)) (volts q) (w.get 0) = (t₂, .ok false) := by
      unfold isTuned
      simp only
      rw [if_pos (show (w.get 0).queued ≠ 0 from hq)]
      rfl
    have h1 := evaluation_call (P := P) hK hev
    have hget : (w.put 0 t₂).get 0 = t₂ := by simp [Shared.get, Shared.put]
    have hon₂ : P.On 0 q₀ q t₂ :=
      ⟨hon.target, hon.gates, hon.index, hon.lastIndex, rfl, hon.values, rfl, hon.lastFailed⟩
    have hnext : ∀ tuned, nextVoltages (Newton.solver I lstsq) tuned ((w.put 0 t₂).get 0) =
        (t₂, .ok (volts (q + x))) := by
      intro tuned
      rw [hget]
      refine P.next_short (t := t₂) hx rfl hon.lastFailed (hs q t₂ tuned hon₂ hests) ?_
      intro M' hM'
      have : some M' = some M := hM'.symm.trans hM
      cases this
      exact hshort
    have h2 : iterates (multiHierarchy I lstsq K P.outs) 1 ⟨w.put 0 t₂, volts q, 0, true, none⟩ =
        .ok ⟨(w.put 0 t₂).put 0 t₂, volts q, 0, false, some (volts (q + x))⟩ := by
      apply iterates_one
      · simp [Autotuner.iterate, multiHierarchy, isComplete, finish, hnext, hK.ne, hK.ne']
      · simp [Autotuner.iterate, multiHierarchy, isComplete, finish, hnext, hK.ne, hK.ne']
    refine ⟨(w.put 0 t₂).put 0 t₂, w.put 0 t₂, (w.put 0 t₂).put 0 t₂, ?_, h1, ?_, hests, ?_, ?_, ?_⟩
    · rw [iterates_add _ 1 2 _ _ h1]
      exact suggestion_calls (P := P) hK hnext
    · rw [iterates_add _ 1 1 _ _ h1]
      exact h2
    · simp only [Shared.put, Function.update_self]
      exact hon₂
    · simp only [Shared.put, Function.update_self]
      exact hq
    · simp only [Shared.put, Function.update_self]
      exact hM
  intro N
  induction N with
  | zero =>
    intro w q q' hests hon hq hM
    obtain ⟨w', w₁, w₂, -, h1, h2, -⟩ := step w q q' hests hon hq hM
    exact ⟨w, by simp [iterates], _, _, h1, rfl, h2, rfl⟩
  | succ N ih =>
    intro w q q' hests hon hq hM
    obtain ⟨w', w₁, w₂, h3, -, -, hests', hon', hq', hM'⟩ := step w q q' hests hon hq hM
    obtain ⟨w'', hit, s₁, s₂, g1, i1, g2, i2⟩ := ih w' (q + x) q hests' hon' hq' hM'
    refine ⟨w'', ?_, s₁, s₂, ?_, i1, ?_, i2⟩
    · rw [show 3 * (N + 1) = 3 + 3 * N by omega, iterates_add _ 3 (3 * N) _ _ h3, hit]
      congr 3
      rw [add_assoc, Nat.cast_succ, add_smul, one_smul, add_comm x]
    · rw [show 3 * (N + 1) + 1 = 3 + (3 * N + 1) by omega, iterates_add _ 3 (3 * N + 1) _ _ h3, g1]
    · rw [show 3 * (N + 1) + 2 = 3 + (3 * N + 2) by omega, iterates_add _ 3 (3 * N + 2) _ _ h3, g2]

/-- One gate; one parameter whose value is the voltage, the set point is `d`. -/
noncomputable def driftPlan (d : ℝ) : Plan 1 1 1 where
  name := fun _ => "x"
  owner := fun _ => 0
  row := fun i _ => ⟨"x", if i = 0 then some d else none, none, none, some (1 / 10), none, some 1⟩
  desired := fun _ => d
  scale := fun _ => 1
  grad := fun _ _ => 1
  offset := fun _ => 0
  gates := fun _ => [0]
  outs := fun _ v => [.ok ([("x", v 0)], [("x", some 1)])]
  variances := {1}

theorem driftPlan_valid (d : ℝ) : (driftPlan d).Valid where
  gates_nodup := fun i => by simp [driftPlan]
  names := fun a b _ => Subsingleton.elim a b
  row_name := fun i k => rfl
  owner := fun k => by simp [driftPlan]
  busy := fun i hi => ⟨0, by simp [driftPlan]; omega⟩
  own := fun k => by simp [driftPlan]
  other := fun i k h => by
    simp only [driftPlan] at h ⊢
    rw [if_neg (Ne.symm h)]
  tolerance := fun i k tol h => by
    simp only [driftPlan, Option.some.injEq] at h
    rw [← h]; norm_num
  independent := fun i _ => by
    rw [Fintype.linearIndependent_iff]
    intro g hg k
    have h0 := congrFun hg ⟨0, by simp [driftPlan]⟩
    rw [Fin.sum_univ_one] at h0
    have h0' : g 0 * 1 = 0 := h0
    rw [Subsingleton.elim k 0]
    linarith
  evaluators := fun i hi v => by
    refine ⟨_, _, rfl, fun k => ⟨fun _ => ⟨?_, 1, rfl, ?_⟩, fun h => absurd ?_ h⟩⟩
    · simp [driftPlan, Plan.response, List.lookup]
    · simp [driftPlan, List.lookup]
    · simp [driftPlan]; omega

/-- The set point is changed from `d` to `d'`. -/
theorem driftPlan_retargets (d d' : ℝ) :
    (driftPlan d).Retargets [[(.desired, [("x", some d')])]] (driftPlan d') where
  name := rfl
  owner := rfl
  scale := rfl
  grad := rfl
  offset := rfl
  gates := rfl
  outs := rfl
  variances := rfl
  length := by simp
  once := fun i => by
    cases i with
    | zero => simp [changesOf]
    | succ i => simp [changesOf]
  known := fun i e he l hl => by
    cases i with
    | zero =>
      simp [changesOf] at he
      subst he
      exact ⟨0, by simpa [Series.index, driftPlan] using hl⟩
    | succ i => simp [changesOf] at he
  assigned := fun i k c s hs hl => by
    cases i with
    | zero =>
      simp [changesOf] at hs
      obtain ⟨rfl, rfl⟩ := hs
      simp [Column.get, driftPlan, Series.val, List.lookup]
    | succ i => simp [changesOf] at hs
  kept := fun i k c h => by
    cases i with
    | zero =>
      cases c
      · exact absurd (show (driftPlan d).name k ∈ Series.index [("x", some d')] by simp [driftPlan, Series.index])
          (h _ (by simp [changesOf]))
      all_goals rfl
    | succ i => cases c <;> rfl
  valid := driftPlan_valid d'

/-- An estimator that knows the gradient 1; limit 1. -/
noncomputable def driftEst : Est 1 :=
  ⟨KG.new none (some fun _ => 1) (some ((1 / 2 : ℝ) • 1)) none none 1, fun _ => none, none, fun _ => .fin 1, fun _ => 3⟩

theorem driftEst_certain : Certain (fun _ => 1) 1 driftEst := by
  refine ⟨⟨rfl, rfl, rfl⟩, ?_, ?_, rfl, ?_⟩
  · funext i
    simp [driftEst, Est.estimate, KG.grad, KG.new]
  · exact PosSemidef.one.smul (by norm_num)
  · intro v hv
    have h : variance driftEst.cov v = 1 / 2 * ∑ i, v i ^ 2 := by
      simp [variance, Est.cov, driftEst, KG.new]
      ring
    rw [h, hv]
    norm_num

/-- A tuner with maximal step size 1 and up to 5 steps without evaluation. -/
noncomputable def driftShared : Shared (Est 1) 1 where
  tuners := fun i =>
    ⟨⟨(driftPlan 10).target i, [], [0], fun _ => none, [("x", none)]⟩,
      [], fun _ => none, [("x", none)], [], false, [], some 1, 5, 0⟩
  ests := [driftEst]

theorem driftShared_tuner : ∀ i < 1, (driftPlan 10).Tuner i (driftShared.tuners i) := by
  intro i hi
  obtain rfl : i = 0 := by omega
  refine ⟨rfl, rfl, ?_, ?_, rfl⟩
  · simp [driftShared, Series.index, driftPlan]
  · intro l hl
    exact ⟨0, rfl, by simpa [driftShared, Series.index, driftPlan] using hl⟩

theorem len_single (x : Vec 1) : len x = |x 0| := by
  simp [len, Real.sqrt_sq_eq_abs]

/-- The Newton step of the drift plan. -/
theorem driftPlan_step {d : ℝ} {q x : Vec 1} (h : (driftPlan d).Reaches 0 q x) : x 0 = d - q 0 := by
  have := h.own 0 rfl
  simp [driftPlan, Plan.scaled, Plan.response] at this
  linarith

theorem Session.iterates {X : Type} {I : Newton.EstI X (Fin n)} {reset : Volt (Fin n) → X → X}
    {lstsq : Newton.Lstsq (Fin n)} {P₀ P : Plan n m K} {s₀ : World' X n} :
    ∀ (N : Nat) (s s' : World' X n), Session I reset lstsq P₀ s₀ P s →
      EndToEnd.iterates (operated I reset lstsq K P₀.outs) N s = .ok s' → Session I reset lstsq P₀ s₀ P s' := by
  intro N
  induction N with
  | zero => intro s s' h hit; cases hit; exact h
  | succ N ih =>
    intro s s' h hit
    unfold EndToEnd.iterates at hit
    have hs := h.iterate
    rcases hi : Autotuner.iterate (operated I reset lstsq K P₀.outs) (.ok ()) s with ⟨s₁, ev, r⟩
    rw [hi] at hit hs
    cases r with
    | error e => cases hit
    | ok u => exact ih s₁ s' hs hit

/-- **C135** is refuted for tuners with a maximal step size: the set point is changed from 10 to 1/2 after the first
of five queued steps.  From then on nothing is ever evaluated again; the voltage grows beyond all bounds, no
exception is raised and the tuning is never complete. -/
theorem operator_may_intervene_refuted {eigh : Eigh} (heigh : EighSpec eigh) {nullspace : Nullspace}
    (hnull : NullspaceSpec nullspace) {lstsq : Newton.Lstsq (Fin 1)} (hl : Newton.LstsqSpec lstsq) :
    (driftPlan 10).Valid ∧ (∀ y ∈ (driftPlan 10).variances, 0 < y) ∧
    (∃ E : Fin 1 → Est 1, driftShared.ests = List.ofFn E ∧
      ∀ k, Certain (fun i => (driftPlan 10).grad k i / (driftPlan 10).scale k) 1 (E k) ∧ (E k).value = none) ∧
    (∀ i < 1, (driftPlan 10).Tuner i (driftShared.tuners i)) ∧
    (∀ i < 1, (driftShared.tuners i).maxStep = some 1 ∧ (driftShared.tuners i).maxNumber = 5) ∧
    ∃ s, Session (kalmanI eigh nullspace) Est.restart lstsq (driftPlan 10) (fresh driftShared (volts 0))
        (driftPlan (1 / 2)) s ∧
      (∀ N, ∃ s', EndToEnd.iterates (operated (kalmanI eigh nullspace) Est.restart lstsq 1 (driftPlan 10).outs) N s =
        .ok s' ∧ isComplete (operated (kalmanI eigh nullspace) Est.restart lstsq 1 (driftPlan 10).outs) s' = false) ∧
      ∀ r : ℝ, ∃ N s', EndToEnd.iterates (operated (kalmanI eigh nullspace) Est.restart lstsq 1 (driftPlan 10).outs) N s =
        .ok s' ∧ ∃ q : Vec 1, s'.expt = volts q ∧ r < q 0 := by
  have hP := driftPlan_valid 10
  have hpos : ∀ y ∈ (driftPlan 10).variances, 0 < y := by
    intro y hy
    rw [Set.mem_singleton_iff.1 hy]
    norm_num
  have hg : (fun i => (driftPlan 10).grad 0 i / (driftPlan 10).scale 0) = fun _ : Fin 1 => (1 : ℝ) := by
    funext i
    simp [driftPlan]
  have hE : ∀ k, Certain (fun i => (driftPlan 10).grad k i / (driftPlan 10).scale k) 1 ((fun _ => driftEst) k) ∧
      ((fun _ : Fin 1 => driftEst) k).value = none := by
    intro k
    rw [Subsingleton.elim k 0, hg]
    exact ⟨driftEst_certain, rfl⟩
  refine ⟨hP, hpos, ⟨fun _ => driftEst, rfl, hE⟩, driftShared_tuner, fun i _ => ⟨rfl, rfl⟩, ?_⟩
  have hI := fun k => kalman_knows hP hpos heigh hnull one_pos k
  generalize kalmanI (n := 1) eigh nullspace = I at hI ⊢
  -- the first evaluation
  obtain ⟨E', t', b, hev, hA, -, hests, hAt, hm1, hm2, hb⟩ := (driftPlan 10).evaluation hP hI (lstsq := lstsq)
    (i := 0) one_pos (E := fun _ => driftEst) (fun k => ⟨(hE k).1, .inl (hE k).2⟩)
    (get_tuner (driftShared_tuner 0 one_pos)) rfl 0
  have hb' : b = false := by
    cases b with
    | false => rfl
    | true =>
      have := hb.1 rfl 0 (1 / 10) rfl rfl
      simp [driftPlan, Plan.response] at this
      norm_num [abs_lt] at this
  subst hb'
  have h1 := evaluation_call (P := driftPlan 10) (K := 1) one_pos hev
  -- the first of five steps
  obtain ⟨x, hx, -, hs⟩ := (driftPlan 10).newton hP hl hI one_pos 0
  have hx10 : x 0 = 10 := by simpa using driftPlan_step hx
  have hlen : len x = 10 := by rw [len_single, hx10]; norm_num
  have hget : (driftShared.put 0 t').get 0 = t' := by simp [Shared.get, Shared.put]
  have hnext : ∀ tuned, nextVoltages (Newton.solver I lstsq) tuned ((driftShared.put 0 t').get 0) =
      ({ t' with queued := left (len x) 1 t' - 1 }, .ok (volts (0 + (1 / len x) • x))) := by
    intro tuned
    rw [hget]
    exact (driftPlan 10).next_long (t := t') (M := 1) hx.outside hAt.lastVoltage hAt.lastFailed
      (hs 0 t' E' tuned hAt.on hests (fun k => (hI k).weaken _ (hA k rfl)) hA) one_pos hm1 (by rw [hlen]; norm_num)
  have hleft : left (len x) 1 t' = 5 := by
    unfold left
    rw [if_pos hAt.queued, hlen, hm2]
    have : toInt ((10 : ℝ) / 1) = 10 := by
      unfold toInt
      rw [if_pos (by norm_num)]
      norm_num
    rw [this]
    rfl
  rw [hleft] at hnext
  have h2 := suggestion_calls (P := driftPlan 10) (K := 1) one_pos (q := 0) hnext
  generalize hw₂ : (driftShared.put 0 t').put 0 { t' with queued := 5 - 1 } = w₂ at h2
  have htun₂ : w₂.tuners 0 = { t' with queued := 5 - 1 } := by
    rw [← hw₂]
    simp [Shared.put]
  have hests₂ : w₂.ests = List.ofFn E' := by
    rw [← hw₂]
    exact hests
  generalize (0 + (1 / len x) • x : Vec 1) = q at h2
  have hsess : Session I Est.restart lstsq (driftPlan 10) (fresh driftShared (volts 0)) (driftPlan 10)
      ⟨w₂, volts q, 0, false, none⟩ := by
    apply Session.iterates 3 _ _ .start
    rw [operated_iterates, show 3 = 1 + 2 by rfl]
    have h1' : EndToEnd.iterates (multiHierarchy I lstsq 1 (driftPlan 10).outs) 1 (fresh driftShared (volts 0)) = _ := h1
    rw [iterates_add _ 1 2 _ _ h1']
    exact h2
  -- the set point is changed
  have hc := driftPlan_retargets 10 (1 / 2)
  obtain ⟨w₃, hw₃, hests₃, htun₃⟩ := applyFrom_ok [[(.desired, [("x", some (1 / 2))])]] 0 w₂ (driftPlan (1 / 2)).target (by
    intro j hj
    have hj0 : j = 0 := by simpa using hj
    subst hj0
    have ht : (w₂.tuners (0 + 0)).solver.target = (driftPlan 10).target 0 := by
      rw [Nat.zero_add, htun₂]
      exact hAt.target
    rw [ht]
    exact hc.target hP 0)
  have hrun : Autotuner.changeTargets (operated I Est.restart lstsq 1 (driftPlan 10).outs)
      [[(.desired, [("x", some (1 / 2))])]] ⟨w₂, volts q, 0, false, none⟩ =
      (⟨w₃, volts q, 0, false, none⟩, [.targetsChanged true], .ok ()) := by
    unfold Autotuner.changeTargets
    have happly : (operated I Est.restart lstsq 1 (driftPlan 10).outs).applyTargets
      [[(.desired, [("x", some (1 / 2))])]] w₂ = (w₃, .ok ()) := hw₃
    rw [if_neg (by simp [operated, multiHierarchy]), happly]
  have hsess' := hsess.changeTargets _ hc
  rw [hrun] at hsess'
  -- the drift
  have ht₃ : w₃.tuners 0 = { t' with
      queued := 5 - 1
      solver := { t'.solver with target := (driftPlan (1 / 2)).target 0 } } := by
    rw [htun₃ 0, if_pos (by simp), htun₂]
  have hI' := fun k => (hI k).sameDevice hc.toSameDevice
  obtain ⟨x', hx', -, hs'⟩ := (driftPlan (1 / 2)).newton (driftPlan_valid _) hl hI' one_pos 0
  have hxhalf : x' 0 = 1 / 2 := by simpa using driftPlan_step hx'
  have hdrift := queued_forever (P := driftPlan (1 / 2)) (K := 1) (I := I) (lstsq := lstsq) one_pos hx'.outside (E := E')
    (q₀ := 0) (fun q t tuned hon he => hs' q t E' tuned hon he (fun k => (hI k).weaken _ (hA k rfl)) hA) (M := 1)
    (by rw [len_single, hxhalf]; norm_num [abs_le])
  have hon₃ : (driftPlan (1 / 2)).On 0 0 0 (w₃.tuners 0) := by
    rw [ht₃]
    exact ⟨rfl, hAt.gates, hAt.index, hAt.lastIndex, hAt.pos, by
      rw [hc.toSameDevice.valuesAt]; exact hAt.values, hAt.lastVoltage, hAt.lastFailed⟩
  have hrest := fun N => hdrift N w₃ q 0 (hests₃.trans hests₂) hon₃ (by rw [ht₃]; simp) (by rw [ht₃]; exact hm1)
  refine ⟨_, hsess', fun N => ?_, fun r => ?_⟩
  · rw [operated_iterates]
    obtain ⟨w', h3, s₁, s₂, g1, i1, g2, i2⟩ := hrest (N / 3)
    have hN : N = 3 * (N / 3) ∨ N = 3 * (N / 3) + 1 ∨ N = 3 * (N / 3) + 2 := by omega
    rcases hN with hN | hN | hN
    · rw [hN]
      exact ⟨_, h3, by simp [isComplete, operated, multiHierarchy]⟩
    · rw [hN]
      exact ⟨_, g1, by simp [isComplete, operated, multiHierarchy, i1]⟩
    · rw [hN]
      exact ⟨_, g2, by simp [isComplete, operated, multiHierarchy, i2]⟩
  · obtain ⟨N, hN⟩ := exists_nat_gt ((r - q 0) * 2)
    obtain ⟨w', h3, -⟩ := hrest N
    refine ⟨3 * N, _, by rw [operated_iterates]; exact h3, _, rfl, ?_⟩
    simp only [Pi.add_apply, Pi.smul_apply, smul_eq_mul, hxhalf]
    linarith

/-- The same tuner without maximal step size. -/
noncomputable def freeShared : Shared (Est 1) 1 :=
  { driftShared with tuners := fun i => { driftShared.tuners i with maxStep := none } }

/-- The hypotheses of the partial theorem are satisfiable with a session in which everything happens, and the
first set point is not met at the start. -/
example {eigh : Eigh} {nullspace : Nullspace} {lstsq : Newton.Lstsq (Fin 1)} :
    (driftPlan 10).Valid ∧ (∀ y ∈ (driftPlan 10).variances, 0 < y) ∧
    (∃ E : Fin 1 → Est 1, freeShared.ests = List.ofFn E ∧
      ∀ k, Certain (fun i => (driftPlan 10).grad k i / (driftPlan 10).scale k) 1 (E k) ∧ (E k).value = none) ∧
    (∀ i < 1, (driftPlan 10).Tuner i (freeShared.tuners i)) ∧ (∀ i < 1, (freeShared.tuners i).maxStep = none) ∧
    ¬ (driftPlan 10).Met 0 0 ∧
    ∃ s, Session (kalmanI eigh nullspace) Est.restart lstsq (driftPlan 10) (fresh freeShared (volts 0))
      (driftPlan 7) s := by
  refine ⟨driftPlan_valid 10, ?_, ⟨fun _ => driftEst, rfl, fun k => ⟨?_, rfl⟩⟩, fun i hi => ?_, fun i _ => rfl, ?_,
    _, .iterate (.changeTargets _ (.restart 3 (.iterate .start)) (driftPlan_retargets 10 7))⟩
  · intro y hy
    rw [Set.mem_singleton_iff.1 hy]
    norm_num
  · have hg : (fun i => (driftPlan 10).grad k i / (driftPlan 10).scale k) = fun _ : Fin 1 => (1 : ℝ) := by
      funext i
      simp [driftPlan]
    rw [hg]
    exact driftEst_certain
  · have := driftShared_tuner i hi
    exact ⟨this.target, this.gates, this.index, this.lastIndex, this.queued⟩
  · intro h
    have := h 0 (1 / 10) rfl rfl
    simp [driftPlan, Plan.response] at this
    norm_num [abs_lt] at this

end Qtune.EndToEnd
