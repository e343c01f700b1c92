import Verif.Kalman.EstimatorHistory

/-! # C47: requests of estimators that do not know all positions -/

namespace Qtune.Kalman

open Matrix

variable {n : Nat}

/-- **C47**, positions that are not known.  Whatever the position and the limits are, a request moves the asked gates from their positions by `eps * v` with a unit direction `v` of these gates;
a gate of which the estimator does not know the position (NaN) is moved from 0.  The other gates stay, also at NaN. -/
theorem kalman_request_unknown_position {eigh : Eigh} (heigh : EighSpec eigh) {gates : List (Fin n)} (hgates : gates.Nodup) {e : Est n} (hP : e.filter.P.PosSemidef)
    {q : Fin n → Val} (h : e.require eigh gates = some q) :
    ∃ v, UnitOn gates v ∧ (∀ i ∈ gates, ∀ p, e.pos i = some p → q i = some (p + e.eps i * v i)) ∧
      (∀ i ∈ gates, e.pos i = none → q i = some (e.eps i * v i)) ∧ ∀ i, i ∉ gates → q i = e.pos i := by
  let A : Matrix (Fin gates.length) (Fin gates.length) ℝ := fun a b => e.cov (gates.get a) (gates.get b)
  have hAsymm : Aᵀ = A := by
    ext a b
    exact cov_symm hP _ _
  obtain ⟨hV, -⟩ := heigh _ A hAsymm
  rcases require_cases eigh gates e _ _ rfl rfl _ (fun _ => rfl) with ⟨-, h'⟩ | ⟨j, -, -, h'⟩
  · rw [h'] at h
    cases h
  · rw [h'] at h
    cases h
    refine ⟨spread gates fun a => (eigh _ A).2 a j, ⟨?_, fun i hi => spread_zero _ i hi⟩, ?_, ?_, ?_⟩
    · rw [sum_gates hgates _ (fun i hi => by rw [spread_zero _ i hi]; ring)]
      simp only [spread_get hgates]
      simpa [sq] using hV j j
    · intro i hi p hp
      obtain ⟨a, rfl⟩ := List.get_of_mem hi
      simp only [addFill, hp, position_get hgates, spread_get hgates, Option.map_some]
      rfl
    · intro i hi hp
      obtain ⟨a, rfl⟩ := List.get_of_mem hi
      simp only [addFill, hp, position_get hgates, spread_get hgates, Option.map_some, zero_add]
      rfl
    · intro i hi
      cases hp : e.pos i <;> simp [addFill, hp, position_none hi]

/-- The hypotheses: one gate at an unknown position with a variance above the limit. -/
example {eigh : Eigh} (heigh : EighSpec eigh) : ∃ (e : Est 1) (q : Fin 1 → Val), e.filter.P.PosSemidef ∧ e.pos 0 = none ∧ e.require eigh [0] = some q := by
  let e : Est 1 := ⟨KG.new none none (some ((2 : ℝ) • 1)) none none 1, fun _ => none, none, fun _ => .fin 1, fun _ => 1⟩
  let e' : Est 1 := Est.new e.filter 0 none (fun _ => .fin 1) (fun _ => 1)
  have hP : e.filter.P.PosSemidef := PosSemidef.one.smul (by norm_num)
  refine ⟨e, ?_⟩
  rcases require_cases eigh [0] e _ _ rfl rfl _ (fun _ => rfl) with ⟨hL, h'⟩ | ⟨j, -, -, h'⟩
  · exfalso
    have h1 : e'.require eigh [0] = none := by
      rcases require_cases eigh [0] e' _ _ rfl rfl _ (fun _ => rfl) with ⟨-, h''⟩ | ⟨j, hj, -, -⟩
      · exact h''
      · exact absurd (hL j) (not_le.2 hj)
    have h2 := (kalman_request heigh (gates := [0]) (by simp) e.filter hP 0 none (fun _ => 1) 1 one_pos).1.1 h1 (fun _ => 1)
      ⟨by simp, fun i hi => by rw [Subsingleton.elim i 0] at hi; simp at hi⟩
    simp [variance, e, Est.cov, Est.new, KG.new] at h2
  · exact ⟨_, hP, rfl, h'⟩

end Qtune.Kalman
