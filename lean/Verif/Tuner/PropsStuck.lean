import Verif.Tuner.PropsStep

/-!
# When a tuner with queued steps never evaluates again (C20)
-/

namespace Qtune.Tuner

variable {S ι : Type}

theorem next_short [Fintype ι] (I : SolverI S ι) (tuned : List String) (t : SubsetTuner S ι)
    (m : ℝ) (hmax : t.maxStep = some m) (hf : t.lastFailed = false) (s : S)
    (sug : ι → Option Val) (d : ι → ℝ) (hs : I.suggest tuned t.solver = (s, .ok sug))
    (hd : vsub (overlay t.lastVoltage sug) t.lastVoltage = fun i => some (d i))
    (hshort : len d ≤ m) :
    nextVoltages I tuned t = ({ t with solver := s }, .ok (vadd t.lastVoltage fun i => some (d i))) := by
  unfold nextVoltages
  rw [hf, hs]
  simp only [Bool.false_eq_true, if_false, hd]
  unfold slice
  rw [norm_real, hmax]
  simp only
  rw [if_neg (not_lt.2 hshort)]

/-- C20 is false for every tuner and every solver: if at some call of `get_next_voltages` steps are queued and from then
on the suggestions of the solver are not longer than the maximal step size, the parameters are never evaluated again,
however long the run goes on: every later call of `is_tuned` finds the same steps queued and answers that the tuner is
not tuned. -/
theorem never_evaluated_again_refuted [Fintype ι] (I : SolverI S ι)
    (ts ts' : Nat → SubsetTuner S ι) (vs : Nat → Volt ι) (hrun : StepRun I ts ts' vs)
    (m : ℝ) (k : Nat) (hmax : (ts k).maxStep = some m) (hf : (ts k).lastFailed = false)
    (hq : (ts k).queued ≠ 0) (d : Nat → ι → ℝ)
    (hs : ∀ j ≥ k, SuggestsStep I ts j (d j)) (hshort : ∀ j ≥ k, len (d j) ≤ m) :
    ∀ j ≥ k, (ts' j).queued = (ts k).queued ∧
      ∀ outs, (isTuned I outs (vs j) (ts' j)).2 = .ok false := by
  have key : ∀ j ≥ k, (ts j).maxStep = some m ∧ (ts j).lastFailed = false ∧ (ts j).queued = (ts k).queued ∧
      (ts' j).queued = (ts k).queued := by
    intro j hj
    induction j, hj using Nat.le_induction with
    | base =>
      obtain ⟨tuned, hn⟩ := hrun.next k
      obtain ⟨s, sug, h1, h2⟩ := hs k (le_refl _) tuned
      rw [next_short I tuned (ts k) m hmax hf s sug (d k) h1 h2 (hshort k (le_refl _))] at hn
      simp only [Prod.mk.injEq] at hn
      exact ⟨hmax, hf, rfl, by rw [← hn.1]⟩
    | succ j hj ih =>
      obtain ⟨a1, a2, a3, a4⟩ := ih
      obtain ⟨tuned0, hn0⟩ := hrun.next j
      obtain ⟨s0, sug0, g1, g2⟩ := hs j hj tuned0
      rw [next_short I tuned0 (ts j) m a1 a2 s0 sug0 (d j) g1 g2 (hshort j hj)] at hn0
      simp only [Prod.mk.injEq] at hn0
      obtain ⟨outs, he⟩ := hrun.eval j
      rw [isTuned_queued I outs (vs j) (ts' j) (by rw [a4]; exact hq)] at he
      simp only at he
      have b1 : (ts (j + 1)).maxStep = some m := by rw [← he, ← hn0.1]; exact a1
      have b2 : (ts (j + 1)).lastFailed = false := by rw [← he, ← hn0.1]; exact a2
      have b3 : (ts (j + 1)).queued = (ts k).queued := by rw [← he]; exact a4
      obtain ⟨tuned, hn⟩ := hrun.next (j + 1)
      obtain ⟨s, sug, h1, h2⟩ := hs (j + 1) (by omega) tuned
      rw [next_short I tuned (ts (j + 1)) m b1 b2 s sug (d (j + 1)) h1 h2 (hshort _ (by omega))] at hn
      simp only [Prod.mk.injEq] at hn
      exact ⟨b1, b2, b3, by rw [← hn.1]; exact b3⟩
  intro j hj
  obtain ⟨-, -, -, h⟩ := key j hj
  refine ⟨h, fun outs => ?_⟩
  rw [isTuned_queued I outs (vs j) (ts' j) (by rw [h]; exact hq)]

/-- The hypotheses are met: the tuner of `bounded_unevaluated_steps_refuted` after its two slices, which has reached the
2 V that its solver asks for, with one step queued. -/
example : StepRun fixedPointSolver (fun _ => sliceTuner 2 1) (fun _ => sliceTuner 2 1) (fun _ _ => some 2) ∧
    (sliceTuner 2 1).queued ≠ 0 ∧
    (∀ j, SuggestsStep fixedPointSolver (fun _ => sliceTuner 2 1) j (fun _ => 0)) ∧
    len (fun _ : Fin 1 => (0 : ℝ)) ≤ 1 := by
  refine ⟨⟨fun k => ⟨[], ?_⟩, fun k => ⟨[], ?_⟩⟩, by simp [sliceTuner], fun j tuned => ⟨(), fun _ => some (some 2), rfl, ?_⟩,
    by simp [len]⟩
  · rw [sliceTuner_next 2 1 (le_refl _), if_neg (by norm_num)]
  · rw [isTuned_queued _ _ _ _ (by simp [sliceTuner])]
    simp [sliceTuner, fixedPointSolver, constSolver]
  · funext i; simp [vsub, overlay, sliceTuner]

end Qtune.Tuner
