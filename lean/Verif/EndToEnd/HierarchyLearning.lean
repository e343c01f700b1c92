import Verif.EndToEnd.Descent
import Verif.EndToEnd.LearningRun
import Verif.EndToEnd.PropsHierarchy

/-! # Several tuners with Kalman estimators that are not sure of the gradients: helper lemmas -/

namespace Qtune.EndToEnd

open Matrix Qtune.Tuner Qtune.Gradient Qtune.Autotuner Qtune.Kalman

variable {n m K : Nat} {X : Type}

/-- The gradients in units of the targets of the owners. -/
noncomputable def Plan.slope (P : Plan n m K) : Fin m → Vec n := fun k j => P.grad k j / P.scale k

/-- What is missing to the set points. -/
noncomputable def Plan.miss (P : Plan n m K) (q : Vec n) : Fin m → ℝ := fun k => P.desired k - P.scaled k q

open Classical in
/-- The entries of the parameters of tuner `i`. -/
noncomputable def Plan.block (P : Plan n m K) (i : Nat) (x : Fin m → ℝ) : Fin m → ℝ :=
  fun k => if P.owner k = i then x k else 0

/-- The sum over the tuners of what is missing to their set points. -/
noncomputable def Plan.toDo (P : Plan n m K) (q : Vec n) : ℝ := ∑ i ∈ Finset.range K, len (P.block i (P.miss q))

theorem Plan.miss_add (P : Plan n m K) (q x : Vec n) : P.miss (q + x) = P.miss q - act P.slope x := by
  funext k
  have e : act P.slope x k = ∑ i, P.grad k i / P.scale k * x i := rfl
  simp only [Plan.miss, Pi.sub_apply, e, P.scaled_add]
  ring

theorem Plan.block_add (P : Plan n m K) (i : Nat) (x y : Fin m → ℝ) :
    P.block i (x + y) = P.block i x + P.block i y := by
  funext k
  by_cases h : P.owner k = i <;> simp [Plan.block, h]

theorem Plan.blocks_sq {P : Plan n m K} (hP : P.Valid) (x : Fin m → ℝ) :
    ∑ i ∈ Finset.range K, len (P.block i x) ^ 2 = len x ^ 2 := by
  simp only [len_sq]
  rw [Finset.sum_comm]
  refine Finset.sum_congr rfl fun k _ => ?_
  rw [Finset.sum_eq_single (P.owner k)]
  · simp [Plan.block]
  · intro i _ hi
    simp [Plan.block, Ne.symm hi]
  · intro h
    exact absurd (Finset.mem_range.2 (hP.owner k)) h

theorem Plan.blocks_le {P : Plan n m K} (hP : P.Valid) (x : Fin m → ℝ) :
    ∑ i ∈ Finset.range K, len (P.block i x) ≤ Real.sqrt K * len x := by
  have h := Finset.sum_mul_sq_le_sq_mul_sq (Finset.range K) (fun _ => (1 : ℝ)) fun i => len (P.block i x)
  simp only [one_mul, one_pow, Finset.sum_const, Finset.card_range, nsmul_eq_mul, mul_one, P.blocks_sq hP] at h
  have h2 : (Real.sqrt K * len x) ^ 2 = K * len x ^ 2 := by
    rw [mul_pow, Real.sq_sqrt (Nat.cast_nonneg K)]
  rw [← h2] at h
  exact (le_abs_self _).trans (abs_le_of_sq_le_sq h (mul_nonneg (Real.sqrt_nonneg _) (len_nonneg x)))

theorem Plan.toDo_nonneg (P : Plan n m K) (q : Vec n) : 0 ≤ P.toDo q := Finset.sum_nonneg fun _ _ => len_nonneg _

/-- A step in any direction. -/
theorem Plan.toDo_add {P : Plan n m K} (hP : P.Valid) (q x : Vec n) :
    P.toDo (q + x) ≤ P.toDo q + Real.sqrt K * (frob P.slope * len x) := by
  have e : P.miss (q + x) = P.miss q + (-1 : ℝ) • act P.slope x := by
    rw [P.miss_add]
    funext k
    simp
    ring
  unfold Plan.toDo
  have h1 : ∀ i, len (P.block i (P.miss (q + x))) ≤
      len (P.block i (P.miss q)) + len (P.block i ((-1 : ℝ) • act P.slope x)) := by
    intro i
    rw [e, P.block_add]
    exact len_add _ _
  refine (Finset.sum_le_sum fun i _ => h1 i).trans ?_
  rw [Finset.sum_add_distrib]
  have h2 := P.blocks_le hP ((-1 : ℝ) • act P.slope x)
  rw [len_smul, abs_neg, abs_one, one_mul] at h2
  have h3 := mul_le_mul_of_nonneg_left (act_le P.slope x) (Real.sqrt_nonneg (K : ℝ))
  linarith

/-- A Newton step of tuner `i` with slightly wrong gradients. -/
theorem Plan.toDo_newton {P : Plan n m K} (hP : P.Valid) {i : Nat} (hi : i < K) {G : Fin m → Vec n} {ρ τ : ℝ} (hτ : 0 < τ)
    (hG : frob (G - P.slope) ≤ ρ) {q x : Vec n} (hx : act G x = P.block i (P.miss q))
    (hs : τ * len x ≤ len (P.block i (P.miss q))) :
    P.toDo (q + x) ≤ P.toDo q - (1 - Real.sqrt K * (ρ / τ)) * len (P.block i (P.miss q)) := by
  let d := act (G - P.slope) x
  have e : P.miss (q + x) = (P.miss q - P.block i (P.miss q)) + d := by
    rw [P.miss_add, ← hx]
    funext k
    have : d k = act G x k - act P.slope x k := by
      simp only [d, act, Pi.sub_apply, ← Finset.sum_sub_distrib, sub_mul]
    simp only [Pi.add_apply, Pi.sub_apply, this]
    ring
  have hρ : 0 ≤ ρ := (frob_nonneg _).trans hG
  have hd : len d ≤ ρ / τ * len (P.block i (P.miss q)) := by
    rw [div_mul_eq_mul_div, le_div_iff₀ hτ]
    have h1 := act_le (G - P.slope) x
    have h2 : frob (G - P.slope) * len x ≤ ρ * len x := mul_le_mul_of_nonneg_right hG (len_nonneg x)
    have h3 := mul_le_mul_of_nonneg_left hs hρ
    nlinarith [mul_le_mul_of_nonneg_right (h1.trans h2) hτ.le]
  have h0 : len (0 : Fin m → ℝ) = 0 := by simp [len]
  have hother : ∀ j, len (P.block j (P.miss q - P.block i (P.miss q))) =
      if j = i then 0 else len (P.block j (P.miss q)) := by
    intro j
    by_cases hj : j = i
    · rw [if_pos hj, ← h0]
      congr 1
      funext k
      by_cases hk : P.owner k = j
      · simp [Plan.block, ← hj, hk]
      · simp [Plan.block, hk]
    · rw [if_neg hj]
      congr 1
      funext k
      by_cases hk : P.owner k = j
      · simp [Plan.block, hk, hj]
      · simp [Plan.block, hk]
  have h1 : P.toDo (q + x) ≤ ∑ j ∈ Finset.range K, ((if j = i then 0 else len (P.block j (P.miss q))) + len (P.block j d)) := by
    unfold Plan.toDo
    refine Finset.sum_le_sum fun j _ => ?_
    rw [e, P.block_add, ← hother j]
    exact len_add _ _
  have h2 : ∑ j ∈ Finset.range K, (if j = i then 0 else len (P.block j (P.miss q))) =
      P.toDo q - len (P.block i (P.miss q)) := by
    unfold Plan.toDo
    rw [← Finset.add_sum_erase _ _ (Finset.mem_range.2 hi), ← Finset.add_sum_erase (a := i) _ (fun j => len (P.block j (P.miss q)))
      (Finset.mem_range.2 hi), if_pos rfl, zero_add, add_sub_cancel_left]
    refine Finset.sum_congr rfl fun j hj => ?_
    rw [if_neg (Finset.ne_of_mem_erase hj)]
  rw [Finset.sum_add_distrib, h2] at h1
  have h3 := (P.blocks_le hP d).trans (mul_le_mul_of_nonneg_left hd (Real.sqrt_nonneg (K : ℝ)))
  calc P.toDo (q + x) ≤ _ := h1
    _ ≤ P.toDo q - len (P.block i (P.miss q)) + Real.sqrt K * (ρ / τ * len (P.block i (P.miss q))) := by linarith
    _ = _ := by ring

/-- A tuner that is not tuned misses at least the smallest tolerance. -/
theorem Plan.not_met {P : Plan n m K} {i : Nat} {q : Vec n} (h : ¬ P.Met i q) {τ : ℝ}
    (hτ : ∀ k tol, (P.row (P.owner k) k).tolerance = some tol → τ ≤ tol) : τ ≤ len (P.block i (P.miss q)) := by
  unfold Plan.Met at h
  push Not at h
  obtain ⟨k, tol, rfl, htol, hge⟩ := h
  refine (hτ k tol htol).trans (hge.trans ?_)
  refine le_trans (le_of_eq ?_) (abs_le_len _ k)
  simp [Plan.block, Plan.miss, Plan.scaled]

/-- The next voltages if the solver suggests voltages for all gates. -/
theorem Plan.next_request {I : Newton.EstI X (Fin n)} {lstsq : Newton.Lstsq (Fin n)}
    {q q' : Vec n} {t : OneTuner X n} (hv : t.lastVoltage = volts q)
    (hf : t.lastFailed = false) {tuned : List String}
    (hs : Newton.suggest I lstsq tuned t.solver = (t.solver, .ok fun j => some (some (q' j))))
    (hμ : t.maxStep = none) :
    nextVoltages (Newton.solver I lstsq) tuned t = (t, .ok (volts q')) := by
  have hs' : (Newton.solver I lstsq).suggest tuned t.solver = _ := hs
  have hstep : vsub (overlay (volts q) fun j => some (some (q' j))) (volts q) = volts (q' - q) := by
    funext j
    simp [vsub, overlay, volts]
  have hslice : slice t.maxStep t.maxNumber t.queued (volts (q' - q)) = .ok (t.queued, volts (q' - q)) := by
    unfold slice
    rw [norm_volts, hμ]
  have hadd : vadd (volts q) (volts (q' - q)) = volts q' := by
    funext j
    simp [vadd, volts]
  unfold nextVoltages
  simp only [hs', hf, Bool.false_eq_true, if_false, hv, hstep, hslice, hadd]
  congr 2
  · exact hv.symm
  · exact hf.symm

/-- The Newton step of tuner `i`, if its estimators request nothing. -/
theorem Plan.rough_newton {P : Plan n m K} (hP : P.Valid) {I : Newton.EstI X (Fin n)}
    {lstsq : Newton.Lstsq (Fin n)} (hl : Newton.LstsqSpec lstsq) {i : Nat} {q : Vec n} {t : OneTuner X n} {E : Fin m → X}
    {G : Fin m → Vec n} (ht : P.At i q t) (hests : t.solver.ests = List.ofFn E) (hm : m ≠ 0)
    (hG : ∀ k, I.estimate (E k) = some fun j => some (G k j)) {τ : ℝ} (hτ : 0 < τ)
    (hcond : ∀ x, τ * len x ≤ len fun j => if j ∈ P.gates i then ∑ k, x k * G k j else 0) {tuned : List String}
    {tj : Option (List (Fin n → Val))} (htj : Newton.tunedJacobian I tuned t.solver = .ok tj)
    (hask : Newton.ask I (P.gates i) tj (t.solver.target.zip t.solver.ests) = (t.solver.ests, .ok none)) :
    ∃ x : Vec n, (∀ j, j ∉ P.gates i → x j = 0) ∧ act G x = P.block i (P.miss q) ∧
      τ * len x ≤ len (P.block i (P.miss q)) ∧
      Newton.suggest I lstsq tuned t.solver =
        (t.solver, .ok fun j => if j ∈ P.gates i then some (some ((q + x) j)) else none) := by
  classical
  let G' : Fin m → Vec n := fun k j => if j ∈ P.gates i then G k j else 0
  have hcond' : ∀ x, τ * len x ≤ len (comb G' x) := by
    intro x
    have : comb G' x = fun j => if j ∈ P.gates i then ∑ k, x k * G k j else 0 := by
      funext j
      by_cases hj : j ∈ P.gates i <;> simp [comb, G', hj]
    rw [this]
    convert hcond x
  let b := P.block i (P.miss q)
  have hrank : Newton.FullRowRank (P.gates i) G := by
    unfold Newton.FullRowRank
    rw [Fintype.linearIndependent_iff]
    intro x hx k
    have : comb G' x = 0 := by
      funext j
      by_cases hj : j ∈ P.gates i
      · have := congrFun hx ⟨j, hj⟩
        simpa [comb, G', hj] using this
      · simp [comb, G', hj]
    exact congrFun (comb_injective hτ hcond' this) k
  obtain ⟨x, hx, hls⟩ := hl (P.gates i) (List.ofFn G) (List.ofFn b) (by simp)
  obtain ⟨hsol, hshort⟩ := hls.solves hrank
  let z : Vec n := fun j => if j ∈ P.gates i then x j else 0
  have hz0 : ∀ j, j ∉ P.gates i → z j = 0 := fun j hj => if_neg hj
  have hact : ∀ (y : Vec n) k, act G' y k = Newton.change (P.gates i) (G k) y := by
    intro y k
    unfold Newton.change act
    symm
    rw [← Finset.sum_subset (Finset.subset_univ (P.gates i).toFinset)]
    · refine Finset.sum_congr rfl fun j hj => ?_
      simp only [G', if_pos (List.mem_toFinset.1 hj)]
    · intro j _ hj
      simp only [G', if_neg (fun h => hj (List.mem_toFinset.2 h)), zero_mul]
  have hlensq : ∀ y : Vec n, (∀ j, j ∉ P.gates i → y j = 0) →
      len y ^ 2 = Newton.lengthSq (P.gates i) y := by
    intro y hy
    rw [len_sq]
    unfold Newton.lengthSq
    symm
    apply Finset.sum_subset (Finset.subset_univ _)
    intro j _ hj
    rw [hy j (by simpa using hj)]
    ring
  have hlz : Newton.lengthSq (P.gates i) z = Newton.lengthSq (P.gates i) x := by
    unfold Newton.lengthSq
    apply Finset.sum_congr rfl
    intro j hj
    simp only [z, if_pos (List.mem_toFinset.1 hj)]
  refine ⟨z, hz0, ?_, ?_, ?_⟩
  · funext k
    have h1 : act G z k = Newton.change (P.gates i) (G k) x := by
      unfold Newton.change act
      symm
      rw [← Finset.sum_subset (Finset.subset_univ (P.gates i).toFinset)]
      · refine Finset.sum_congr rfl fun j hj => ?_
        simp only [z, if_pos (List.mem_toFinset.1 hj)]
      · intro j _ hj
        simp only [z, if_neg (fun h => hj (List.mem_toFinset.2 h)), mul_zero]
    rw [h1, hsol k]
  · obtain ⟨s, hs, hsl⟩ := short_solution hτ hcond' b
    refine le_trans (mul_le_mul_of_nonneg_left ?_ hτ.le) hsl
    have h1 := hshort s fun k => by rw [← hact, hs]
    have h2 : Newton.lengthSq (P.gates i) s ≤ len s ^ 2 := by
      rw [len_sq]
      unfold Newton.lengthSq
      exact Finset.sum_le_sum_of_subset_of_nonneg (Finset.subset_univ _) fun _ _ _ => sq_nonneg _
    rw [← hlz, ← hlensq z hz0] at h1
    exact (le_abs_self _).trans (abs_le_of_sq_le_sq (h1.trans h2) (len_nonneg s))
  · have hval : ∀ k, t.solver.values.val (P.row i k).name =
        if P.owner k = i then some (P.scaled k q) else none := by
      intro k
      rw [ht.values, hP.row_name]
      exact val_ofFn P.name _ hP.names k
    have hdiff : (t.solver.target.map fun r => Newton.requiredDiff r.desired (t.solver.values.val r.name)) =
        List.ofFn b := by
      rw [ht.target, Plan.target, List.map_ofFn]
      congr 1
      funext k
      simp only [Function.comp_def, hval, b]
      by_cases ho : P.owner k = i
      · have hd : (P.row i k).desired = some (P.desired k) := by rw [← ho]; exact (hP.own k).1
        simp [ho, hd, Newton.requiredDiff, Plan.block, Plan.miss]
      · simp [ho, hP.other i k ho, Newton.requiredDiff, Plan.block]
    have hconcat : Newton.concat (t.solver.ests.map I.estimate) =
        .ok ((List.ofFn G).map fun g j => some (g j)) := by
      have := Newton.concat_some ((List.ofFn G).map fun g j => some (g j)) (by simpa using hm)
      rw [← this, hests, List.map_ofFn]
      congr 1
      simp only [List.map_ofFn, Function.comp_def]
      congr 1
      funext k
      exact hG k
    unfold Newton.suggest
    rw [htj]
    simp only [ht.gates, hask]
    unfold Newton.newtonStep
    simp only [hdiff, hconcat, ht.gates]
    rw [if_neg (by simp), hx]
    simp only [ht.pos]
    refine Prod.ext ?_ ?_
    · simp only
      rw [← ht.gates, ← ht.pos]
    · simp only
      congr 1
      funext j
      by_cases hj : j ∈ P.gates i
      · simp [hj, z, volts]
      · simp [hj]

end Qtune.EndToEnd
