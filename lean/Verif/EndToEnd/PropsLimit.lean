import Verif.EndToEnd.Props

/-!
# End to end with a maximal step size

A Newton step that is longer than the maximal step size is made in slices; the tuner is evaluated after a
limited number of them.
-/

namespace Qtune.EndToEnd

open Qtune.Tuner Qtune.Gradient Qtune.Autotuner

variable {n m : Nat}

/-- **C111**.  The same as C75 with a maximal step size `M` and a maximal number of steps between two
evaluations: if `M` is at least twice as large as the steps `B` of the finite differences, and `y` is any
point that meets the set points, `iterate` called at most `3 * (n + 1) + 1 + 3 * ⌊(|y - c| + B) / M⌋` times
never raises and ends with the tuning complete, and the voltages then meet all set points within their
tolerances. -/
theorem affine_device_is_tuned_limited {S : Setup n m} (hS : S.Valid) {orth : Orth n} (ho : OrthSpec orth)
    {lstsq : Newton.Lstsq (Fin n)} (hl : Newton.LstsqSpec lstsq) (c : Vec n) (t : OneTuner (FD n) n) {B M : ℝ}
    (ht : Initial S c B t) (hmax : t.maxStep = some M) (hM : 0 < M) (hB : 2 * B ≤ M)
    (hnum : 1 ≤ t.maxNumber) (y : Vec n) (hy : ∀ k, S.response k y / S.scale k = S.desired k) :
    CompletesWithin S (fdI orth) lstsq (3 * (n + 1) + 1 + 3 * ⌊(len (y - c) + B) / M⌋₊) (fresh t (volts c)) := by
  have := first_phase hS ho (lstsq := lstsq) c t ht (by
    intro M' hM'
    rw [hmax] at hM'
    cases hM'
    exact hB) (3 * (⌊(len (y - c) + B) / M⌋₊ + 1)) (by
    intro E q t' h hq hdone
    rw [hmax] at h
    refine newton_phase_limited hS hl hM hnum (fd_keeps S orth) _ (len (y - c) + B) E q y t' hdone (le_refl _)
      h hy ?_
    have h1 : y - q = (y - c) + (c - q) := by abel
    rw [h1]
    refine (len_add _ _).trans ?_
    rw [len_sub_comm c q]
    linarith)
  obtain ⟨K, hK, hc⟩ := this
  exact ⟨K, by omega, hc⟩

/-- A case that meets the hypotheses: the device of `sampleSetup` with steps of at most 1, at most 5 between
two evaluations, starting at the voltages 80, 80; the nearest solution is more than 30 steps away. -/
example : Initial sampleSetup (fun _ => 80) (1 / 2) { sampleTuner with maxStep := some 1 } ∧
    (2 : ℝ) * (1 / 2) ≤ 1 ∧ 1 ≤ ({ sampleTuner with maxStep := some 1 } : OneTuner (FD 2) 2).maxNumber ∧
    (∀ k, sampleSetup.response k ![80 - 146 / 5, 80 + 73 / 5] / sampleSetup.scale k = sampleSetup.desired k) ∧
    30 < len (![80 - 146 / 5, 80 + 73 / 5] - fun _ => 80 : Vec 2) := by
  refine ⟨⟨rfl, ⟨fun _ => none, fun _ _ => 1 / 2, fun _ => .inl rfl, fun _ _ => by norm_num, rfl⟩, rfl,
      rfl, by simp [sampleTuner, Series.index], rfl⟩, by norm_num, by simp [sampleTuner], ?_, ?_⟩
  · intro k
    simp [sampleSetup, Setup.response, Fin.sum_univ_two]
    norm_num
  · unfold len
    refine Real.lt_sqrt_of_sq_lt ?_
    simp [Fin.sum_univ_two]
    norm_num

end Qtune.EndToEnd
