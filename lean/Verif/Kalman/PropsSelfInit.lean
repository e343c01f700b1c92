import Verif.Kalman.EstimatorHistory

/-! # C51: what is left of the self initialising estimator -/

namespace Qtune.Kalman

variable {n : Nat}

/-- A finite difference estimator is updated with the same measurements, also after exceptions. -/
noncomputable def fdUpdates (e : Gradient.FD n) : List (Gradient.Vec n × ℝ × ℝ × Bool) → Gradient.FD n
  | [] => e
  | (p, v, c, _) :: us => fdUpdates (e.update p (some v) (some c)).1 us

/-- A Kalman estimator is updated with the same measurements, also after exceptions. -/
noncomputable def kalmanUpdates (k : Est n) : List (Gradient.Vec n × ℝ × ℝ × Bool) → Est n
  | [] => k
  | (p, v, c, b) :: us => kalmanUpdates (k.update (fun i => some (p i)) v c b).1 us

theorem selfInit_fd (e : SelfInit n) (p : Gradient.Vec n) (v c : ℝ) (b : Bool) :
    (e.update p v c b).1.fd = (e.fd.update p (some v) (some c)).1 := by
  unfold SelfInit.update
  split
  · rename_i h; rw [h]
  · rename_i h
    rw [h]
    split
    · rfl
    · split
      · rfl
      · split
        · rfl
        · split <;> rfl

/-- **C51**, first phase: an estimator made by `from_scratch` measures finite differences: after any updates its gradient
is the one that a finite difference estimator with the same settings has after the same updates, and an update raises
only if that one raises or has its gradient.  Missing: the second phase, see `self_initialising_refuted`. -/
theorem finite_difference_phase_partial (pos : Option (Gradient.Vec n)) (eps : Gradient.Vec n) (limit : Limit)
    (symmetric : Bool) (us : List (Gradient.Vec n × ℝ × ℝ × Bool)) :
    ((SelfInit.fromScratch pos eps limit symmetric).updates us).estimate =
      (fdUpdates (Gradient.FD.new pos eps symmetric) us).estimate.map Prod.fst ∧
    ∀ p v c b, (fdUpdates (Gradient.FD.new pos eps symmetric) (us ++ [(p, v, c, b)])).estimate = none →
      (((SelfInit.fromScratch pos eps limit symmetric).updates us).update p v c b).2 =
        ((fdUpdates (Gradient.FD.new pos eps symmetric) us).update p (some v) (some c)).2 := by
  have key : ∀ (us : List (Gradient.Vec n × ℝ × ℝ × Bool)) (e : SelfInit n), e.kalman = none →
      (e.updates us).kalman = none ∧ (e.updates us).fd = fdUpdates e.fd us := by
    intro us
    induction us with
    | nil => exact fun e h => ⟨h, rfl⟩
    | cons u us ih =>
      intro e h
      obtain ⟨p, v, c, b⟩ := u
      have := ih _ (selfInit_step e h p v c b).1
      rw [selfInit_fd] at this
      exact this
  obtain ⟨hk, hf⟩ := key us (SelfInit.fromScratch pos eps limit symmetric) rfl
  change _ = fdUpdates (Gradient.FD.new pos eps symmetric) us at hf
  constructor
  · unfold SelfInit.estimate
    rw [hk, hf]
  · intro p v c b hn
    have happ : ∀ (us : List (Gradient.Vec n × ℝ × ℝ × Bool)) (e : Gradient.FD n),
        fdUpdates e (us ++ [(p, v, c, b)]) = ((fdUpdates e us).update p (some v) (some c)).1 := by
      intro us
      induction us with
      | nil => exact fun _ => rfl
      | cons u us ih => exact fun e => ih _
    rw [happ] at hn
    unfold SelfInit.update
    rw [hf]
    split
    · rename_i h; rw [h]
    · rename_i h
      rw [h] at hn ⊢
      rw [hk]
      dsimp only
      rw [hn]

/-- **C51**, second phase: an estimator that is constructed with a Kalman estimator and with a finite difference estimator that
has its gradient is this Kalman estimator: after any updates it has the gradient that the Kalman estimator has after the
same updates, and every update raises what that one raises. -/
theorem kalman_phase_partial (e : SelfInit n) (k : Est n) (hk : e.kalman = some k) (hp : e.fd.pos ≠ none)
    (he : e.fd.estimate ≠ none) (us : List (Gradient.Vec n × ℝ × ℝ × Bool)) :
    (e.updates us).estimate = some (fun i => some ((kalmanUpdates k us).estimate i)) ∧
    ∀ p v c b, ((e.updates us).update p v c b).2 = ((kalmanUpdates k us).update (fun i => some (p i)) v c b).2 := by
  have hfd : ∀ p v c, e.fd.update p v c = (e.fd, .ok ()) := by
    intro p v c
    unfold Gradient.FD.update
    cases h1 : e.fd.pos with
    | none => exact absurd h1 hp
    | some c₀ => cases h2 : e.fd.estimate with
      | none => exact absurd h2 he
      | some r => rfl
  induction us generalizing e k with
  | nil =>
    refine ⟨?_, fun p v c b => ?_⟩
    · change e.estimate = _
      unfold SelfInit.estimate
      rw [hk]
      rfl
    · change (e.update p v c b).2 = (k.update (fun i => some (p i)) v c b).2
      unfold SelfInit.update
      rw [hfd, hk]
  | cons u us ih =>
    obtain ⟨p, v, c, b⟩ := u
    have h1 : (e.update p v c b).1.kalman = some (k.update (fun i => some (p i)) v c b).1 := by
      unfold SelfInit.update
      rw [hfd, hk]
    have h2 : (e.update p v c b).1.fd = e.fd := by rw [selfInit_fd, hfd]
    exact ih _ _ h1 (by rw [h2]; exact hp) (by rw [h2]; exact he) (by rw [h2]; exact hfd)

/-- A finite difference estimator of one gate that has its gradient, and a Kalman estimator. -/
example : ∃ (e : SelfInit 1) (k : Est 1), e.kalman = some k ∧ e.fd.pos ≠ none ∧ e.fd.estimate ≠ none :=
  ⟨⟨⟨some 0, 1, false, some (fun _ => some 3, some 1), [], []⟩,
    some ⟨KG.new none (some fun _ => 3) (some fun _ _ => 1) none none 1, fun _ => some 0, some 2, fun _ => .inf, fun _ => 1⟩, none, none⟩,
    _, rfl, by simp, by simp⟩

end Qtune.Kalman
