import Verif.Kalman.EstimatorLemmas

/-! # Properties of the Kalman estimator: measurement requests -/

namespace Qtune.Kalman

open Matrix

variable {n : Nat}

theorem cov_symm {e : Est n} (h : e.filter.P.PosSemidef) (i j : Fin n) : e.cov i j = e.cov j i := by
  unfold Est.cov
  exact (congrFun (congrFun (symm_of_posSemidef h) _) _).symm

theorem cov_variance {e : Est n} (v : Fin n → ℝ) :
    variance e.cov v = variance e.filter.P (fun j => v (j.cast (one_mul n))) := by
  unfold variance Est.cov
  let c : Fin (1 * n) ≃ Fin n := finCongr (one_mul n)
  rw [← c.sum_comp]
  refine Finset.sum_congr rfl fun i _ => ?_
  rw [← c.sum_comp]
  exact Finset.sum_congr rfl fun j _ => rfl

theorem cov_nonneg {e : Est n} (h : e.filter.P.PosSemidef) (v : Fin n → ℝ) : 0 ≤ variance e.cov v := by
  rw [cov_variance, variance_eq]
  have := h.dotProduct_mulVec_nonneg (fun j => v (j.cast (one_mul n)))
  simpa using this

/-- **C47**.  With the same limit `m > 0` for all gates, `require_measurement(gates)` returns `None`
exactly if the variance of the gradient is at most `m` in every unit direction of these gates.
Otherwise it returns the current position displaced by `eps * v`, where `v` is a most uncertain unit
direction of these gates; its variance exceeds `m`, and the other gates do not move. -/
theorem kalman_request {eigh : Eigh} (heigh : EighSpec eigh) {gates : List (Fin n)}
    (hgates : gates.Nodup) (f : KG 1 n) (hP : f.P.PosSemidef) (p : Fin n → ℝ) (value : Option ℝ)
    (eps : Fin n → ℝ) (m : ℝ) (hm : 0 < m) :
    let e := Est.new f p value (fun _ => .fin m) eps
    (e.require eigh gates = none ↔ ∀ v, UnitOn gates v → variance e.cov v ≤ m) ∧
    ∀ q, e.require eigh gates = some q → ∃ v, UnitOn gates v ∧ m < variance e.cov v ∧
      (∀ u, UnitOn gates u → variance e.cov u ≤ variance e.cov v) ∧
      q = displaced p (fun i => eps i * v i) := by
  intro e
  have hPe : e.filter.P.PosSemidef := hP
  let A : Matrix (Fin gates.length) (Fin gates.length) ℝ := fun a b => e.cov (gates.get a) (gates.get b)
  have hAsymm : Aᵀ = A := by
    ext a b
    exact cov_symm hPe _ _
  obtain ⟨hV, hAV⟩ := heigh _ A hAsymm
  set w := (eigh _ A).1 with hw
  set V := (eigh _ A).2 with hVdef
  -- the columns as directions on the gates
  have hunit : ∀ j, UnitOn gates (spread gates fun a => V a j) := by
    intro j
    refine ⟨?_, fun i hi => spread_zero _ i hi⟩
    rw [sum_gates hgates _ (fun i hi => by rw [spread_zero _ i hi]; ring)]
    simp only [spread_get hgates]
    simpa [sq] using hV j j
  have hvar : ∀ j, variance e.cov (spread gates fun a => V a j) = w j := by
    intro j
    rw [variance_gates hgates _ _ (fun i hi => spread_zero _ i hi)]
    simp only [spread_get hgates]
    exact variance_eigenvector hV hAV j
  have hwnn : ∀ j, 0 ≤ w j := fun j => hvar j ▸ cov_nonneg hPe _
  have hle : ∀ M : ℝ, (∀ j, w j ≤ M) → ∀ u, UnitOn gates u → variance e.cov u ≤ M := by
    intro M hM u hu
    rw [variance_gates hgates _ _ hu.support]
    refine variance_le_max hV hAV hM ?_
    rw [← sum_gates hgates (fun i => u i ^ 2) (fun i hi => by rw [hu.support i hi]; ring)]
    exact hu.unit
  -- the lengths
  have hlen : ∀ j, Real.sqrt (∑ a, ((Limit.fin m).under (w j * V a j)) ^ 2) = w j / m := by
    intro j
    have : ∑ a, ((Limit.fin m).under (w j * V a j)) ^ 2 = (w j / m) ^ 2 := by
      have h1 : ∑ a, V a j ^ 2 = 1 := by simpa [sq] using hV j j
      unfold Limit.under
      calc ∑ a, (w j * V a j / m) ^ 2 = ∑ a, (w j / m) ^ 2 * V a j ^ 2 :=
            Finset.sum_congr rfl fun a _ => by ring
        _ = (w j / m) ^ 2 := by rw [← Finset.mul_sum, h1, mul_one]
    rw [this, Real.sqrt_sq (div_nonneg (hwnn j) hm.le)]
  have hreq : e.require eigh gates =
      if ∃ j, w j / m > 1 then
        match (List.finRange gates.length).argmax (fun j => w j / m) with
        | none => none
        | some j => some (addFill e.pos fun i => (position gates i).map fun a => eps i * V a j)
      else none := by
    unfold Est.require
    simp only [show e.maxCov = fun _ => Limit.fin m from rfl, show e.eps = eps from rfl]
    have hl : (fun j => Real.sqrt (∑ a, ((Limit.fin m).under (w j * V a j)) ^ 2)) = fun j => w j / m :=
      funext hlen
    have hA' : (fun a b => e.cov (gates.get a) (gates.get b)) = A := rfl
    rw [hA', ← hw, ← hVdef]
    rw [hl]
    simp only [hlen]
    congr
  have hgt : ∀ j, w j / m > 1 ↔ m < w j := fun j => by
    rw [gt_iff_lt, lt_div_iff₀ hm, one_mul]
  constructor
  · rw [hreq]
    constructor
    · intro h
      by_cases hex : ∃ j, w j / m > 1
      · rw [if_pos hex] at h
        obtain ⟨j, -⟩ := hex
        cases harg : (List.finRange gates.length).argmax (fun j => w j / m) with
        | none =>
          rw [List.argmax_eq_none] at harg
          exact absurd (List.mem_finRange j) (by rw [harg]; simp)
        | some j => rw [harg] at h; simp at h
      · push Not at hex
        refine hle m fun j => ?_
        have := hex j
        rwa [div_le_one hm] at this
    · intro h
      rw [if_neg]
      rintro ⟨j, hj⟩
      have := h _ (hunit j)
      rw [hvar] at this
      exact absurd ((hgt j).1 hj) (not_lt.2 this)
  · intro q hq
    rw [hreq] at hq
    split at hq
    · rename_i hex
      split at hq
      · cases hq
      · rename_i j harg
        cases hq
        have hmax : ∀ i, w i ≤ w j := fun i => by
          have := List.le_of_mem_argmax (List.mem_finRange i) harg
          rwa [div_le_div_iff_of_pos_right hm] at this
        refine ⟨_, hunit j, ?_, ?_, ?_⟩
        · rw [hvar]
          obtain ⟨i, hi⟩ := hex
          exact lt_of_lt_of_le ((hgt i).1 hi) (hmax i)
        · rw [hvar]
          exact hle _ hmax
        · funext i
          unfold displaced addFill spread
          have hp : e.pos i = some (p i) := rfl
          cases hpos : position gates i with
          | none => simp [hp, hpos]
          | some a => simp [hp, hpos]
    · cases hq

/-- The hypotheses are met by two gates, one of which is uncertain. -/
example : ∃ (f : KG 1 2), f.P.PosSemidef ∧ ([0, 1] : List (Fin 2)).Nodup ∧
    ∃ v, UnitOn [0, 1] v ∧ (1 : ℝ) < variance (Est.new f 0 none (fun _ => .fin 1) 1).cov v := by
  refine ⟨KG.new none none (some ((2 : ℝ) • 1)) none none 1, PosSemidef.one.smul (by norm_num), by decide,
    Pi.single 0 1, ⟨by simp [Fin.sum_univ_two], ?_⟩, ?_⟩
  · intro i hi
    fin_cases i <;> simp at hi
  · simp [variance, Fin.sum_univ_two, Est.cov, Est.new, KG.new, one_apply]

end Qtune.Kalman
