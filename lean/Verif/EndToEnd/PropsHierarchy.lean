import Verif.EndToEnd.HierarchyRun
import Verif.EndToEnd.PropsKalman

/-!
# End to end: several tuners on an affine device

`Plan` and `Plan.Valid` (`HierarchySpec`) describe the device and the targets in the way of
`setup_tutorial.ipynb`: every solver knows all parameters and shares the gradient estimators with the others;
the parameters of the other tuners have no set point in its target.
-/

namespace Qtune.EndToEnd

open Matrix Qtune.Tuner Qtune.Gradient Qtune.Autotuner Qtune.Kalman

variable {n m K : Nat}

/-- The device and the targets of the owners. -/
def Plan.toSetup (P : Plan n m K) : Setup n m :=
  ⟨fun k => P.row (P.owner k) k, P.desired, P.scale, P.grad, P.response, [], fun _ => [], P.variances⟩

theorem Plan.gates_ne {P : Plan n m K} (hP : P.Valid) (k : Fin m) : n ≠ 0 := by
  rintro rfl
  have := (hP.independent _ (hP.owner k)).ne_zero k
  apply this
  funext j
  exact j.1.elim0

/-- Kalman estimators with known gradient. -/
theorem kalman_knows {P : Plan n m K} (hP : P.Valid) (hpos : ∀ y ∈ P.variances, 0 < y)
    {eigh : Eigh} (heigh : EighSpec eigh) {nullspace : Nullspace} (hnull : NullspaceSpec nullspace) {l : ℝ}
    (hl : 0 < l) (k : Fin m) :
    Knows P (kalmanI eigh nullspace) k
      (fun e => Certain (fun i => P.grad k i / P.scale k) l e ∧ (e.value = none ∨ Measured (P.scaled k) e))
      (fun e => Certain (fun i => P.grad k i / P.scale k) l e ∧ Measured (P.scaled k) e) where
  gradient := fun e h => by simp [kalmanI, h.1.gradient]
  update := fun e h q y hy => by
    obtain ⟨v, hv, rfl⟩ := hy
    exact certain_update (S := P.toSetup) ⟨P.offset, fun _ _ => rfl⟩ (k := k) h.1 h.2 q
      (div_pos (hpos v hv) (mul_self_pos.2 (hP.own k).2.2))
  weaken := fun e h => ⟨h.1, .inr h.2⟩
  silent := fun e h tj => certain_silent hl h.1 h.2 heigh hnull (hP.gates_nodup _) (P.gates_ne hP k) tj

/-- Finite difference estimators that have found the gradient. -/
theorem fd_knows (P : Plan n m K) (orth : Orth n) (k : Fin m) :
    Knows P (fdI orth) k (Done fun i => P.grad k i / P.scale k) (Done fun i => P.grad k i / P.scale k) where
  gradient := fun e h => by
    obtain ⟨C, hC⟩ := h.est
    simp [fdI, hC]
  update := fun e h q y _ => ⟨e, h.keeps _ _ _, h⟩
  weaken := fun e h => h
  silent := fun e h tj => h.silent tj

theorem completes {P : Plan n m K} (hP : P.Valid) {X : Type} {I : Newton.EstI X (Fin n)}
    {lstsq : Newton.Lstsq (Fin n)} (hl : Newton.LstsqSpec lstsq) {G A : Fin m → X → Prop}
    (hI : ∀ k, Knows P I k (G k) (A k)) (c : Vec n) {w : Shared X n} {E : Fin m → X}
    (hests : w.ests = List.ofFn E) (hE : ∀ k, G k (E k)) (ht : ∀ i < K, P.Tuner i (w.tuners i))
    (hlim : ∀ i < K, (w.tuners i).maxStep = none ∨
      ∃ M, (w.tuners i).maxStep = some M ∧ 0 < M ∧ 1 ≤ (w.tuners i).maxNumber) :
    ((∀ i < K, (w.tuners i).maxStep = none) →
      P.CompletesWithin I lstsq (4 * K + K * (K - 1) / 2) (fresh w (volts c))) ∧
    ∃ N, P.CompletesWithin I lstsq N (fresh w (volts c)) := by
  obtain ⟨N, hN, hc⟩ := pass_all hP hl hI (lim := fun i => ((w.tuners i).maxStep, (w.tuners i).maxNumber))
    (fun i hi => hlim i hi) K 0 (by omega) c w
    ⟨⟨E, hests, hE, fun j hj _ => ⟨ht j hj, rfl, rfl⟩⟩, fun j hj => absurd hj (Nat.not_lt_zero j)⟩
  refine ⟨fun h => ?_, N, hc⟩
  have h1 : N = 4 * K + K * (K - 1) / 2 := by
    rw [hN h, Finset.sum_add_distrib]
    simp only [Finset.sum_const, Nat.card_Ico, smul_eq_mul]
    rw [Nat.Ico_zero_eq_range, Finset.sum_range_id]
    omega
  rw [← h1]
  exact hc

/-- **C119**, Kalman estimators.  An autotuner with `K` tuners with Newton solvers that share their Kalman
estimators, as in the tutorial, tunes every affine device if the gradients are known with an uncertainty below
the limit `l`, are linearly independent on the gates of each tuner and the evaluators report positive
variances: `iterate` never raises and the tuning is complete after finitely many calls; without maximal step
sizes after at most `4 * K + K * (K - 1) / 2` calls.  The voltages then meet the set points of all tuners at
the same time. -/
theorem hierarchy_is_tuned {P : Plan n m K} (hP : P.Valid) (hpos : ∀ y ∈ P.variances, 0 < y)
    {eigh : Eigh} (heigh : EighSpec eigh) {nullspace : Nullspace} (hnull : NullspaceSpec nullspace)
    {lstsq : Newton.Lstsq (Fin n)} (hl : Newton.LstsqSpec lstsq) (c : Vec n) {w : Shared (Est n) n} {l : ℝ}
    (hl0 : 0 < l)
    {E : Fin m → Est n} (hests : w.ests = List.ofFn E)
    (hE : ∀ k, Certain (fun i => P.grad k i / P.scale k) l (E k) ∧
      ((E k).value = none ∨ Measured (fun v => P.response k v / P.scale k) (E k)))
    (ht : ∀ i < K, P.Tuner i (w.tuners i))
    (hlim : ∀ i < K, (w.tuners i).maxStep = none ∨
      ∃ M, (w.tuners i).maxStep = some M ∧ 0 < M ∧ 1 ≤ (w.tuners i).maxNumber) :
    ((∀ i < K, (w.tuners i).maxStep = none) →
      P.CompletesWithin (kalmanI eigh nullspace) lstsq (4 * K + K * (K - 1) / 2) (fresh w (volts c))) ∧
    ∃ N, P.CompletesWithin (kalmanI eigh nullspace) lstsq N (fresh w (volts c)) :=
  completes hP hl (kalman_knows hP hpos heigh hnull hl0) c hests hE ht hlim

/-- **C119**, finite difference estimators that have found the gradients. -/
theorem hierarchy_is_tuned_fd {P : Plan n m K} (hP : P.Valid) {orth : Orth n}
    {lstsq : Newton.Lstsq (Fin n)} (hl : Newton.LstsqSpec lstsq) (c : Vec n) {w : Shared (FD n) n}
    {E : Fin m → FD n} (hests : w.ests = List.ofFn E)
    (hE : ∀ k, (E k).pos ≠ none ∧ ∃ C, (E k).estimate = some (fun i => some (P.grad k i / P.scale k), C))
    (ht : ∀ i < K, P.Tuner i (w.tuners i))
    (hlim : ∀ i < K, (w.tuners i).maxStep = none ∨
      ∃ M, (w.tuners i).maxStep = some M ∧ 0 < M ∧ 1 ≤ (w.tuners i).maxNumber) :
    ((∀ i < K, (w.tuners i).maxStep = none) →
      P.CompletesWithin (fdI orth) lstsq (4 * K + K * (K - 1) / 2) (fresh w (volts c))) ∧
    ∃ N, P.CompletesWithin (fdI orth) lstsq N (fresh w (volts c)) :=
  completes hP hl (fd_knows P orth) c hests (fun k => ⟨(hE k).1, (hE k).2⟩) ht hlim

/-! ### A device with two tuners that meets the hypotheses -/

/-- Two gates; parameter `x` with response `2 * g0 - g1 + 5` is tuned by the first tuner, `y` with response
`g0 + 3 * g1` by the second one, which has another rescaling factor for `x`. -/
noncomputable def samplePlan : Plan 2 2 2 where
  name := ![ "x", "y" ]
  owner := fun k => k.1
  row := fun i k =>
    if k = 0 then
      if i = 0 then ⟨"x", some 3, none, none, some (1 / 10), none, some 4⟩
      else ⟨"x", none, none, none, none, none, some 1⟩
    else
      if i = 1 then ⟨"y", some 7, none, none, some (1 / 5), none, some 2⟩
      else ⟨"y", none, none, none, none, none, some 1⟩
  desired := ![3, 7]
  scale := ![4, 2]
  grad := ![![2, -1], ![1, 3]]
  offset := ![5, 0]
  gates := fun _ => [0, 1]
  outs := fun i v =>
    if i = 0 then [.ok ([("x", do let a ← v 0; let b ← v 1; pure (2 * a - b + 5))], [("x", some 1)])]
    else [.ok ([("y", do let a ← v 0; let b ← v 1; pure (a + 3 * b))], [("y", some 1)])]
  variances := {1}

theorem samplePlan_valid : samplePlan.Valid where
  gates_nodup := fun i => by simp [samplePlan]
  names := by
    intro a b h
    fin_cases a <;> fin_cases b <;> simp_all [samplePlan]
  row_name := fun i k => by
    fin_cases k <;> simp [samplePlan] <;> split_ifs <;> rfl
  owner := fun k => k.2
  busy := fun i hi => ⟨⟨i, hi⟩, rfl⟩
  own := fun k => by fin_cases k <;> simp [samplePlan]
  other := fun i k h => by
    fin_cases k
    · simp [samplePlan] at h ⊢
      rw [if_neg (fun h' => h h'.symm)]
    · simp [samplePlan] at h ⊢
      rw [if_neg (fun h' => h h'.symm)]
  tolerance := fun i k tol h => by
    fin_cases k
    · simp [samplePlan] at h
      split_ifs at h
      simp at h; rw [← h]; norm_num
    · simp [samplePlan] at h
      split_ifs at h
      simp at h; rw [← h]; norm_num
  independent := fun i _ => by
    rw [Fintype.linearIndependent_iff]
    intro g hg
    have h0 := congrFun hg ⟨0, by simp [samplePlan]⟩
    have h1 := congrFun hg ⟨1, by simp [samplePlan]⟩
    rw [Fin.sum_univ_two] at h0 h1
    have h0' : g 0 * 2 + g 1 * 1 = 0 := h0
    have h1' : g 0 * -1 + g 1 * 3 = 0 := h1
    intro k
    fin_cases k
    · simp; linarith
    · simp; linarith
  evaluators := fun i hi v => by
    have hi' : i = 0 ∨ i = 1 := by omega
    rcases hi' with rfl | rfl
    · refine ⟨_, _, rfl, fun k => ?_⟩
      fin_cases k
      · refine ⟨fun _ => ⟨?_, 1, rfl, ?_⟩, fun h => absurd rfl h⟩
        · simp [samplePlan, Plan.response, List.lookup, Fin.sum_univ_two]
          ring
        · simp [samplePlan, List.lookup]
      · refine ⟨fun h => by simp [samplePlan] at h, fun _ => ?_⟩
        simp [samplePlan, List.lookup]
    · refine ⟨_, _, rfl, fun k => ?_⟩
      fin_cases k
      · refine ⟨fun h => by simp [samplePlan] at h, fun _ => ?_⟩
        simp [samplePlan, List.lookup]
      · refine ⟨fun _ => ⟨?_, 1, rfl, ?_⟩, fun h => absurd rfl h⟩
        · simp [samplePlan, Plan.response, List.lookup, Fin.sum_univ_two]
        · simp [samplePlan, List.lookup]

/-- Estimator with the given gradient, variance 1/2 in all directions and limit 1. -/
noncomputable def estOf (g : Vec 2) : Est 2 :=
  ⟨KG.new none (some g) (some ((1 / 2 : ℝ) • 1)) none none 1, fun _ => none, none, fun _ => .fin 1, fun _ => 3⟩

noncomputable def sampleShared : Shared (Est 2) 2 where
  tuners := fun i =>
    ⟨⟨samplePlan.target i, [], [0, 1], fun _ => none, [("x", none), ("y", none)]⟩,
      [], fun _ => none, [(if i = 0 then "x" else "y", none)], [], false, [], if i = 0 then some 1 else none, 5, 0⟩
  ests := [estOf ![1 / 2, -1 / 4], estOf ![1 / 2, 3 / 2]]

theorem estOf_certain (g : Vec 2) : Certain g 1 (estOf g) := by
  refine ⟨⟨rfl, rfl, rfl⟩, ?_, ?_, rfl, ?_⟩
  · funext i
    fin_cases i <;> simp [estOf, Est.estimate, KG.grad, KG.new]
  · exact PosSemidef.one.smul (by norm_num)
  · intro v hv
    have h : variance (estOf g).cov v = 1 / 2 * ∑ i, v i ^ 2 := by
      simp [variance, Est.cov, estOf, KG.new, Fin.sum_univ_two, one_apply]
      ring
    rw [h, hv]
    norm_num

/-- The hypotheses are satisfiable, and at the start no tuner is tuned. -/
theorem sampleShared_valid : samplePlan.Valid ∧ (∀ y ∈ samplePlan.variances, 0 < y) ∧
    (∃ E : Fin 2 → Est 2, sampleShared.ests = List.ofFn E ∧
      ∀ k, Certain (fun i => samplePlan.grad k i / samplePlan.scale k) 1 (E k) ∧ (E k).value = none) ∧
    (∀ i < 2, samplePlan.Tuner i (sampleShared.tuners i)) ∧
    (∀ i < 2, (sampleShared.tuners i).maxStep = none ∨ ∃ M, (sampleShared.tuners i).maxStep = some M ∧ 0 < M ∧
      1 ≤ (sampleShared.tuners i).maxNumber) ∧
    ∀ i < 2, ¬ samplePlan.Met i fun _ => 80 := by
  refine ⟨samplePlan_valid, ?_, ?_, ?_, ?_, ?_⟩
  · intro y hy
    rw [Set.mem_singleton_iff.1 hy]
    norm_num
  · refine ⟨![estOf ![1 / 2, -1 / 4], estOf ![1 / 2, 3 / 2]], by simp [sampleShared], fun k => ?_⟩
    fin_cases k
    · refine ⟨?_, rfl⟩
      have : (fun i => samplePlan.grad 0 i / samplePlan.scale 0) = ![1 / 2, -1 / 4] := by
        funext i
        fin_cases i <;> simp [samplePlan] <;> norm_num
      change Certain (fun i => samplePlan.grad 0 i / samplePlan.scale 0) 1 _
      rw [this]
      exact estOf_certain _
    · refine ⟨?_, rfl⟩
      have : (fun i => samplePlan.grad 1 i / samplePlan.scale 1) = ![1 / 2, 3 / 2] := by
        funext i
        fin_cases i <;> simp [samplePlan]
      change Certain (fun i => samplePlan.grad 1 i / samplePlan.scale 1) 1 _
      rw [this]
      exact estOf_certain _
  · intro i hi
    refine ⟨rfl, rfl, ?_, ?_, rfl⟩
    · simp [sampleShared, Series.index, samplePlan]
    · intro l hl
      have hi' : i = 0 ∨ i = 1 := by omega
      rcases hi' with rfl | rfl
      · exact ⟨0, rfl, by simpa [sampleShared, Series.index, samplePlan] using hl⟩
      · exact ⟨1, rfl, by simpa [sampleShared, Series.index, samplePlan] using hl⟩
  · intro i hi
    have hi' : i = 0 ∨ i = 1 := by omega
    rcases hi' with rfl | rfl
    · right; exact ⟨1, by simp [sampleShared], by norm_num, by simp [sampleShared]⟩
    · left; simp [sampleShared]
  · intro i hi h
    have hi' : i = 0 ∨ i = 1 := by omega
    rcases hi' with rfl | rfl
    · have := h 0 (1 / 10) rfl (by simp [samplePlan])
      simp [samplePlan, Plan.response, Fin.sum_univ_two] at this
      norm_num [abs_lt] at this
    · have := h 1 (1 / 5) rfl (by simp [samplePlan])
      simp [samplePlan, Plan.response, Fin.sum_univ_two] at this
      norm_num [abs_lt] at this

/-- `hierarchy_is_tuned` applies to it. -/
example {eigh : Eigh} (heigh : EighSpec eigh) {nullspace : Nullspace} (hnull : NullspaceSpec nullspace)
    {lstsq : Newton.Lstsq (Fin 2)} (hl : Newton.LstsqSpec lstsq) :
    ∃ N, samplePlan.CompletesWithin (kalmanI eigh nullspace) lstsq N (fresh sampleShared (volts fun _ => 80)) := by
  obtain ⟨hP, hpos, ⟨E, hE, hE'⟩, ht, hlim, -⟩ := sampleShared_valid
  exact (hierarchy_is_tuned hP hpos heigh hnull hl _ one_pos hE (fun k => ⟨(hE' k).1, .inl (hE' k).2⟩) ht hlim).2

end Qtune.EndToEnd
