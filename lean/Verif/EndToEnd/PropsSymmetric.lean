import Verif.EndToEnd.Symmetric
import Verif.EndToEnd.Props

/-!
# End to end with symmetric finite differences

A symmetric estimator measures on both sides of its position.  Whether the tuning ends depends on whether the
estimators are created with a position: see `symmetric_estimators_partial` and `symmetric_estimators_refuted`.
-/

namespace Qtune.EndToEnd

open Qtune.Tuner Qtune.Gradient Qtune.Autotuner

variable {n m : Nat}

/-- The tuner as it is set up: the target of `S`, one fresh symmetric finite difference estimator for each
parameter with positive steps of at most `B`, all of them created with the position `start`, no queued
voltages. -/
structure InitialSym (S : Setup n m) (start : Option (Vec n)) (B : ℝ) (t : OneTuner (FD n) n) : Prop where
  target : t.solver.target = S.target
  ests : ∃ eps : Fin m → Vec n, (∀ k i, 0 < eps k i ∧ eps k i ≤ B) ∧
    t.solver.ests = List.ofFn fun k => FD.new start (eps k) true
  gates : t.solver.gates = S.gates
  index : t.solver.values.index = S.target.names
  lastIndex : t.lastValues.index ⊆ S.target.names
  queued : t.queued = 0

/-- First evaluation and collection of the gradients.  `K` calls are needed after that. -/
theorem first_phase_symmetric {S : Setup n m} (hS : S.Valid) {orth : Orth n} (ho : OrthSpec orth)
    {lstsq : Newton.Lstsq (Fin n)} (c : Vec n) (t : OneTuner (FD n) n) {B : ℝ} (ht : InitialSym S none B t)
    (hμ : ∀ M, t.maxStep = some M → 2 * B ≤ M) (K : Nat)
    (hK : ∀ (E : Fin m → FD n) (q : Vec n) (t' : OneTuner (FD n) n), At S (t.maxStep, t.maxNumber) E q t' →
      len (q - c) ≤ B → (∀ k, Done (fun i => S.grad k i / S.scale k) (E k)) →
      CompletesWithin S (fdI orth) lstsq K ⟨t', volts q, 0, true, none⟩) :
    CompletesWithin S (fdI orth) lstsq (6 * n + 1 + K) (fresh t (volts c)) := by
  have hn : n ≠ 0 := by
    rintro rfl
    have := hS.independent.fintype_card_le_finrank
    simp at this
    exact hS.nonempty this
  obtain ⟨eps, heps, hests⟩ := ht.ests
  have hbase : Base S (t.maxStep, t.maxNumber) (fun k => FD.new none (eps k) true) t :=
    ⟨ht.target, hests, ht.gates, ht.index, rfl, rfl, ht.queued, ht.lastIndex⟩
  obtain ⟨y, t', b, h1, hAt, hb⟩ := evaluation_at_start (lstsq := lstsq) (I := fdI orth) hS.toSound hbase c
    fun k y _ => ⟨_, rfl⟩
  cases b with
  | true => exact ⟨1, by omega, _, h1, rfl, c, rfl, hb rfl⟩
  | false =>
    cases m with
    | zero => exact absurd rfl hS.nonempty
    | succ m =>
      have hB : 0 ≤ B := (heps 0 ⟨0, Nat.pos_of_ne_zero hn⟩).1.le.trans (heps 0 _).2
      obtain ⟨M, hM, s', hs', hc⟩ := collect_symmetric hS (B := B) ho (lstsq := lstsq) c hμ K hK (n - 1) 0
        (by omega) (fun j : Fin 0 => (j.elim0 : Vec n)) (linearIndependent_empty_type) _ c t' hAt
        (by simpa [len] using hB) fun j => ⟨eps j, fun j : Fin 0 => (j.elim0 : Vec n × ℝ × ℝ), heps j,
          fun j => j.elim0, sym_start _ _ _ _⟩
      refine ⟨1 + M, by omega, s', ?_, hc⟩
      rw [iterates_add _ 1 M _ _ h1]
      exact hs'

/-- **C132**, the tunings for which it holds: the symmetric estimators are created without a position.  Every
affine device with linearly independent gradients is tuned: `iterate` called at most `6 * n + 4` times never
raises and ends with the tuning complete, and the voltages then meet all set points within their tolerances.
With a maximal step size `M` of at least twice the steps `B` of the finite differences, `3` more calls are needed
for each full `M` on the way to a point `y` that meets the set points.
Missing: estimators that are created with the position at which the tuning starts, see
`symmetric_estimators_refuted`. -/
theorem symmetric_estimators_partial {S : Setup n m} (hS : S.Valid) {orth : Orth n} (ho : OrthSpec orth)
    {lstsq : Newton.Lstsq (Fin n)} (hl : Newton.LstsqSpec lstsq) (c : Vec n) (t : OneTuner (FD n) n) {B : ℝ}
    (ht : InitialSym S none B t) :
    (t.maxStep = none → CompletesWithin S (fdI orth) lstsq (6 * n + 4) (fresh t (volts c))) ∧
    ∀ M, t.maxStep = some M → 0 < M → 2 * B ≤ M → 1 ≤ t.maxNumber →
      ∀ y : Vec n, (∀ k, S.response k y / S.scale k = S.desired k) →
        CompletesWithin S (fdI orth) lstsq (6 * n + 4 + 3 * ⌊(len (y - c) + B) / M⌋₊) (fresh t (volts c)) := by
  constructor
  · intro hmax
    refine first_phase_symmetric hS ho c t ht (by rw [hmax]; simp) 3 ?_
    intro E q t' h _ hdone
    obtain ⟨x, hsug, -, hx, -⟩ := newton_suggestion hS (I := fdI orth) hl h (fd_keeps S orth) hdone
    exact newton_phase hS h (fd_keeps S orth) hdone hsug hx (by rw [hmax]; simp)
  · intro M hmax hM hB hnum y hy
    obtain ⟨K, hK, hc⟩ := first_phase_symmetric hS ho (lstsq := lstsq) c t ht (by
      intro M' hM'
      rw [hmax] at hM'
      cases hM'
      exact hB) (3 * (⌊(len (y - c) + B) / M⌋₊ + 1)) (by
      intro E q t' h hq hdone
      rw [hmax] at h
      refine newton_phase_limited hS hl hM hnum (fd_keeps S orth) _ (len (y - c) + B) E q y t' hdone (le_refl _)
        h hy ?_
      have h1 : y - q = (y - c) + (c - q) := by abel
      rw [h1]
      refine (len_add _ _).trans ?_
      rw [len_sub_comm c q]
      linarith)
    exact ⟨K, by omega, hc⟩

/-- **C132** is false if the symmetric estimators are created with the position at which the tuning starts: the
first evaluation there counts as the first half of a pair, the other half is measured at the same voltages, and
the differences are singular.  For every device, affine or not, and any number of gates and parameters: if no
voltages within the step size of the start meet the set points, `iterate` succeeds exactly `6 * n - 3` times and
then raises an `EvaluationError`, before any Newton step. -/
theorem symmetric_estimators_refuted {S : Setup n m} (hS : S.Sound) (hn : n ≠ 0) {orth : Orth n} (ho : OrthSpec orth)
    (lstsq : Newton.Lstsq (Fin n)) (c : Vec n) (t : OneTuner (FD n) n) {B : ℝ} (ht : InitialSym S (some c) B t)
    (hμ : ∀ M, t.maxStep = some M → 2 * B ≤ M) (hfar : ∀ q, len (q - c) ≤ B → ¬ SetPointsMet S q) :
    ∃ s, iterates (hierarchy (fdI orth) lstsq S.outs) (6 * n - 3) (fresh t (volts c)) = .ok s ∧
      isComplete (hierarchy (fdI orth) lstsq S.outs) s = false ∧
      (iterate (hierarchy (fdI orth) lstsq S.outs) (.ok ()) s).2.2 = .error .evaluationError := by
  change RaisesAfter S (fdI orth) lstsq .evaluationError (6 * n - 3) (fresh t (volts c))
  obtain ⟨eps, heps, hests⟩ := ht.ests
  have hbase : Base S (t.maxStep, t.maxNumber) (fun k => FD.new (some c) (eps k) true) t :=
    ⟨ht.target, hests, ht.gates, ht.index, rfl, rfl, ht.queued, ht.lastIndex⟩
  have hupd : ∀ k y, (fdI orth).update (volts c) (some (S.scaled k c)) (some y) (FD.new (some c) (eps k) true) =
      ({ FD.new (some c) (eps k) true with stored := [(c, some (S.scaled k c), some y)] }, .ok ()) := by
    intro k y
    change FD.update c (some (S.scaled k c)) (some y) (FD.new (some c) (eps k) true) = _
    rw [update_stores (c' := c) _ _ _ rfl rfl (by simp [FD.new]; omega) (by simp [FD.new])]
    rfl
  obtain ⟨y, t', b, h1, hAt, hb⟩ := evaluation_at_start (lstsq := lstsq) (I := fdI orth) hS hbase c
    fun k y _ => ⟨_, hupd k y⟩
  cases m with
  | zero => exact absurd rfl hS.nonempty
  | succ m =>
    have hB : 0 ≤ B := (heps 0 ⟨0, Nat.pos_of_ne_zero hn⟩).1.le.trans (heps 0 _).2
    have h0 : len (0 : Vec n) ≤ B := by simpa [len] using hB
    cases b with
    | true => exact absurd (hb rfl) (hfar c (by simpa using h0))
    | false =>
      have hhalf : ∀ j, SymColHalf S.gates B (S.scaled j) c (fun j : Fin 0 => (j.elim0 : Vec n)) 0
          ((fdI orth).update (volts c) (some (S.scaled j c)) (some (y j)) (FD.new (some c) (eps j) true)).1 := by
        intro j
        rw [hupd]
        refine ⟨eps j, fun j : Fin 0 => (j.elim0 : Vec n × ℝ × ℝ), y j, heps j, fun j => j.elim0,
          rfl, rfl, rfl, rfl, fun j => j.elim0, fun i _ => rfl, ?_⟩
        simp [asVals]
      have hstart : ∀ N, RaisesAfter S (fdI orth) lstsq .evaluationError N ⟨t', volts (c + 0), 0, true, none⟩ →
          RaisesAfter S (fdI orth) lstsq .evaluationError (1 + N) (fresh t (volts c)) := by
        rintro N ⟨s', hs', hc⟩
        refine ⟨s', ?_, hc⟩
        rw [iterates_add _ 1 N _ _ h1]
        rw [add_zero] at hs'
        exact hs'
      have hAt' := hAt
      rw [show At S (t.maxStep, t.maxNumber) _ c t' = At S (t.maxStep, t.maxNumber) _ (c + 0) t' by
        rw [add_zero]] at hAt'
      rcases Nat.eq_or_lt_of_le (Nat.one_le_iff_ne_zero.2 hn) with h | h
      · rw [show 6 * n - 3 = 1 + 2 by omega]
        refine hstart 2 (last_half_raises hS hμ h h0 ⟨0, ?_⟩ hAt' hhalf)
        rfl
      · rw [show 6 * n - 3 = 1 + (3 + (6 * (n - 2) + 5)) by omega]
        have hG := raises_passes (I := fdI orth) (lstsq := lstsq) (μ := (t.maxStep, t.maxNumber))
          (err := .evaluationError) hS hfar
        refine hstart _ (second_half hS hn hG hμ h0 hAt' hhalf
          (fun j e => SymCol S.gates B (S.scaled j) c
            (Fin.snoc (fun j : Fin 0 => (j.elim0 : Vec n)) 0 : Fin 1 → Vec n) e)
          (fun j e he y => he.update (by omega) y) fun E t hAt hq hP => ?_)
        exact collect_raises hS ho c hμ hfar (n - 2) 1 (by omega) _ ⟨0, rfl⟩ E _ t hAt hq hP

/-! ### Cases that meet the hypotheses -/

/-- The tuner of `sampleSetup` with a symmetric estimator. -/
noncomputable def sampleSymTuner (start : Option (Vec 2)) : OneTuner (FD 2) 2 :=
  ⟨⟨sampleSetup.target, [FD.new start (fun _ => 1 / 2) true], [0, 1], fun _ => none, [("x", none)]⟩,
    [], fun _ => none, [], [], false, [], none, 5, 0⟩

theorem sampleSymTuner_initial (start : Option (Vec 2)) : InitialSym sampleSetup start (1 / 2) (sampleSymTuner start) :=
  ⟨rfl, ⟨fun _ _ => 1 / 2, fun _ _ => by norm_num, rfl⟩, rfl, rfl, by simp [sampleSymTuner, Series.index], rfl⟩

/-- Without a position: complete after at most 16 calls. -/
example : ∃ (orth : Orth 2) (lstsq : Newton.Lstsq (Fin 2)),
    CompletesWithin sampleSetup (fdI orth) lstsq 16 (fresh (sampleSymTuner none) (volts fun _ => 8)) := by
  obtain ⟨o, ho⟩ := exists_orth 2
  obtain ⟨l, hl⟩ := Newton.exists_lstsq (ι := Fin 2)
  exact ⟨o, l, (symmetric_estimators_partial sampleSetup_valid ho hl _ _ (sampleSymTuner_initial none)).1 rfl⟩

/-- With a maximal step size of 1: the set point is met at `(7, 7)`, two steps away. -/
example : ∃ (orth : Orth 2) (lstsq : Newton.Lstsq (Fin 2)),
    CompletesWithin sampleSetup (fdI orth) lstsq (16 + 3 * ⌊(len ((fun _ => 7 : Vec 2) - fun _ => 8) + 1 / 2) / 1⌋₊)
      (fresh { sampleSymTuner none with maxStep := some 1 } (volts fun _ => 8)) := by
  obtain ⟨o, ho⟩ := exists_orth 2
  obtain ⟨l, hl⟩ := Newton.exists_lstsq (ι := Fin 2)
  refine ⟨o, l, (symmetric_estimators_partial sampleSetup_valid ho hl (fun _ => 8)
    { sampleSymTuner none with maxStep := some 1 } (B := 1 / 2) ?_).2 1 rfl one_pos (by norm_num) ?_ _ ?_⟩
  · exact ⟨rfl, ⟨fun _ _ => 1 / 2, fun _ _ => by norm_num, rfl⟩, rfl, rfl, by simp [sampleSymTuner, Series.index], rfl⟩
  · simp [sampleSymTuner]
  · intro k
    simp [sampleSetup, Setup.response]
    norm_num

/-- With the position at which the tuning starts: 9 calls succeed, the tenth raises. -/
example : ∃ (orth : Orth 2) (lstsq : Newton.Lstsq (Fin 2)) (s : _),
    iterates (hierarchy (fdI orth) lstsq sampleSetup.outs) 9
      (fresh (sampleSymTuner (some fun _ => 80)) (volts fun _ => 80)) = .ok s ∧
    isComplete (hierarchy (fdI orth) lstsq sampleSetup.outs) s = false ∧
    (iterate (hierarchy (fdI orth) lstsq sampleSetup.outs) (.ok ()) s).2.2 = .error .evaluationError := by
  obtain ⟨o, ho⟩ := exists_orth 2
  obtain ⟨l, hl⟩ := Newton.exists_lstsq (ι := Fin 2)
  refine ⟨o, l, symmetric_estimators_refuted sampleSetup_valid.toSound two_ne_zero ho l _ _
    (sampleSymTuner_initial _) (by simp [sampleSymTuner]) ?_⟩
  intro q hq hmet
  have h1 : ∑ i, (q i - 80) ^ 2 ≤ (1 / 2) ^ 2 := by
    have := (Real.sqrt_le_left (by norm_num)).1 (show Real.sqrt _ ≤ _ from hq)
    simpa using this
  rw [Fin.sum_univ_two] at h1
  have h2 := hmet 0 (1 / 10) rfl
  have h3 : sampleSetup.response 0 q = 2 * q 0 - q 1 + 5 := rfl
  rw [h3] at h2
  simp only [sampleSetup] at h2
  rw [abs_lt] at h2
  have h4 : -1 ≤ q 0 - 80 := by nlinarith [sq_nonneg (q 0 - 80), sq_nonneg (q 1 - 80)]
  have h5 : q 1 - 80 ≤ 1 := by nlinarith [sq_nonneg (q 0 - 80), sq_nonneg (q 1 - 80)]
  linarith [h2.1]

end Qtune.EndToEnd
