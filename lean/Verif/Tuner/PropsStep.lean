import Verif.Tuner.Props

/-! # Step slicing of `SubsetTuner` (C19–C21) -/

namespace Qtune.Tuner

variable {S ι : Type}

/-- Euclidean length of a real vector. -/
noncomputable def len [Fintype ι] (x : ι → ℝ) : ℝ := Real.sqrt (∑ i, x i ^ 2)

theorem norm_real [Fintype ι] (x : ι → ℝ) : norm (fun i => some (x i)) = some (len x) := by
  simp [norm, len]

theorem len_nonneg [Fintype ι] (x : ι → ℝ) : 0 ≤ len x := Real.sqrt_nonneg _

theorem len_smul [Fintype ι] (c : ℝ) (hc : 0 ≤ c) (x : ι → ℝ) :
    len (fun i => c * x i) = c * len x := by
  unfold len
  have : ∑ i, (c * x i) ^ 2 = c ^ 2 * ∑ i, x i ^ 2 := by
    rw [Finset.mul_sum]; exact Finset.sum_congr rfl fun i _ => by ring
  rw [this, Real.sqrt_mul (sq_nonneg c), Real.sqrt_sq hc]

/-! ## C19 -/

/-- **C19.** Let the maximal step size be the positive number `m`, let the last evaluation not
have failed, and let the solver suggest real voltages for some gates (`sug`).  Then the
tuner suggests voltages `u` with `‖u - last‖ ≤ m`, in the direction of the solver's
suggestion (`u = last + c (suggestion - last)` with `0 ≤ c ≤ 1`), gates that the solver
does not mention are not moved, suggestions within the limit are passed on unchanged, and
longer ones are shortened to exactly the limit. -/
theorem step_size_limit [Fintype ι] (I : SolverI S ι) (tuned : List String)
    (t : SubsetTuner S ι) (m : ℝ) (hm : 0 < m) (hmax : t.maxStep = some m)
    (hf : t.lastFailed = false) (last : ι → ℝ) (hlast : t.lastVoltage = fun i => some (last i))
    (s : S) (sug : ι → Option ℝ)
    (hs : I.suggest tuned t.solver = (s, .ok fun i => (sug i).map some)) :
    ∃ (t' : SubsetTuner S ι) (u : ι → ℝ), nextVoltages I tuned t = (t', .ok fun i => some (u i)) ∧
      len (fun i => u i - last i) ≤ m ∧
      (∃ c : ℝ, 0 ≤ c ∧ c ≤ 1 ∧ ∀ i, u i = last i + c * ((sug i).getD (last i) - last i)) ∧
      (∀ i, sug i = none → u i = last i) ∧
      (len (fun i => (sug i).getD (last i) - last i) ≤ m → ∀ i, u i = (sug i).getD (last i)) ∧
      (m < len (fun i => (sug i).getD (last i) - last i) → len (fun i => u i - last i) = m) := by
  set d : ι → ℝ := fun i => (sug i).getD (last i) - last i with hd
  have hstep : vsub (overlay t.lastVoltage fun i => (sug i).map some) t.lastVoltage =
      fun i => some (d i) := by
    funext i
    simp only [vsub, overlay, hlast, hd]
    cases sug i <;> simp
  have hnone : ∀ i, sug i = none → d i = 0 := by
    intro i hi; simp [hd, hi]
  unfold nextVoltages
  rw [hf, hs]
  simp only [Bool.false_eq_true, if_false, hstep]
  unfold slice
  rw [norm_real, hmax]
  simp only
  by_cases hlt : m < len d
  · have hpos : 0 < len d := lt_trans hm hlt
    rw [if_pos hlt, if_neg (by rintro ⟨-, h0⟩; linarith)]
    simp only
    refine ⟨_, fun i => last i + m / len d * d i, Prod.ext rfl ?_, ?_, ⟨m / len d, ?_, ?_, ?_⟩, ?_, ?_, ?_⟩
    · simp only [Except.ok.injEq]
      funext i
      simp [vadd, smul, hlast]
    · have : (fun i => last i + m / len d * d i - last i) = fun i => m / len d * d i := by
        funext i; ring
      rw [this, len_smul _ (by positivity), div_mul_cancel₀ _ hpos.ne']
    · positivity
    · rw [div_le_one hpos]; exact hlt.le
    · intro i; rfl
    · intro i hi; simp [hnone i hi]
    · intro hle; exact absurd hlt (not_lt.2 hle)
    · intro _
      have : (fun i => last i + m / len d * d i - last i) = fun i => m / len d * d i := by
        funext i; ring
      rw [this, len_smul _ (by positivity), div_mul_cancel₀ _ hpos.ne']
  · rw [if_neg hlt]
    simp only
    refine ⟨_, fun i => last i + d i, Prod.ext rfl ?_, ?_, ⟨1, by norm_num, le_refl _, ?_⟩, ?_, ?_, ?_⟩
    · simp only [Except.ok.injEq]
      funext i
      simp [vadd, hlast]
    · have : (fun i => last i + d i - last i) = d := by funext i; ring
      rw [this]; exact not_lt.1 hlt
    · intro i; simp [hd]
    · intro i hi; simp [hnone i hi]
    · intro _ i; simp [hd]
    · intro h; exact absurd h hlt

/-- Non-vacuity: a solver that asks for 5 V on the only gate, a limit of 2 V. -/
example : ∃ (I : SolverI Unit (Fin 1)) (t : SubsetTuner Unit (Fin 1)),
    t.maxStep = some 2 ∧ t.lastFailed = false ∧
    I.suggest [] t.solver = ((), .ok fun i => ((fun _ => some 5 : Fin 1 → Option ℝ) i).map some) :=
  ⟨{ constSolver goodTarget with suggest := fun _ s => (s, .ok fun _ => some (some 5)) },
    { newTuner goodTarget with maxStep := some 2 }, rfl, rfl, rfl⟩

/-! ## Runs without evaluation -/

/-- A run of a tuner whose suggestions are executed: `ts k` is the tuner when it is asked for
the `k`-th voltages, `vs k` are these voltages, `ts' k` is the tuner after it was asked;
then `is_tuned` is called at `vs k`. The latter evaluates parameters only if no steps are
queued. -/
structure StepRun [Fintype ι] (I : SolverI S ι) (ts ts' : Nat → SubsetTuner S ι)
    (vs : Nat → Volt ι) : Prop where
  next : ∀ k, ∃ tuned, nextVoltages I tuned (ts k) = (ts' k, .ok (vs k))
  eval : ∀ k, ∃ outs, (isTuned I outs (vs k) (ts' k)).1 = ts (k + 1)

/-- The solver's suggestion in the `k`-th step is displaced by `d k` from the voltages. -/
def SuggestsStep [Fintype ι] (I : SolverI S ι) (ts : Nat → SubsetTuner S ι) (k : Nat)
    (d : ι → ℝ) : Prop :=
  ∀ tuned, ∃ s sug, I.suggest tuned (ts k).solver = (s, .ok sug) ∧
    vsub (overlay (ts k).lastVoltage sug) (ts k).lastVoltage = fun i => some (d i)

theorem isTuned_queued (I : SolverI S ι) (outs : List Outcome) (v : Volt ι)
    (t : SubsetTuner S ι) (h : t.queued ≠ 0) :
    isTuned I outs v t =
      ({ t with lastVoltage := v, solver := I.setPosition v t.solver }, .ok false) := by
  unfold isTuned; simp [h]

theorem next_long [Fintype ι] (I : SolverI S ι) (tuned : List String) (t : SubsetTuner S ι)
    (m : ℝ) (hm : 0 < m) (hmax : t.maxStep = some m) (hf : t.lastFailed = false) (s : S)
    (sug : ι → Option Val) (d : ι → ℝ) (hs : I.suggest tuned t.solver = (s, .ok sug))
    (hd : vsub (overlay t.lastVoltage sug) t.lastVoltage = fun i => some (d i))
    (hlong : m < len d) :
    nextVoltages I tuned t =
      ({ t with
          solver := s
          queued := (if t.queued = 0 then min ⌊len d / m⌋ t.maxNumber else t.queued) - 1 },
        .ok (vadd t.lastVoltage fun i => some (m / len d * d i))) := by
  have hpos : 0 < len d := lt_trans hm hlong
  unfold nextVoltages
  rw [hf, hs]
  simp only [Bool.false_eq_true, if_false, hd]
  unfold slice
  rw [norm_real, hmax]
  simp only
  rw [if_pos hlong, if_neg (by rintro ⟨-, h0⟩; linarith)]
  have : toInt (len d / m) = ⌊len d / m⌋ := by
    unfold toInt; rw [if_pos (by positivity)]
  simp only [this]
  rfl

/-- State of the run as long as nothing is evaluated and all suggestions are long. -/
theorem stepRun_long [Fintype ι] {I : SolverI S ι} {ts ts' : Nat → SubsetTuner S ι}
    {vs : Nat → Volt ι} (hrun : StepRun I ts ts' vs) (m : ℝ) (hm : 0 < m)
    (hmax : (ts 0).maxStep = some m) (hf : (ts 0).lastFailed = false)
    (hq : (ts 0).queued = 0) (d : Nat → ι → ℝ)
    (hs : ∀ k, SuggestsStep I ts k (d k)) (hlong : ∀ k, m < len (d k)) :
    ∀ j, (∀ i < j, (ts' i).queued ≠ 0) →
      (ts j).maxStep = some m ∧ (ts j).lastFailed = false ∧
      (ts j).maxNumber = (ts 0).maxNumber ∧
      (ts' j).queued = min ⌊len (d 0) / m⌋ (ts 0).maxNumber - (j + 1) ∧
      vs j = vadd (ts j).lastVoltage (fun i => some (m / len (d j) * d j i)) ∧
      (0 < j → (ts j).lastVoltage = vs (j - 1)) := by
  intro j
  induction j with
  | zero =>
    intro _
    obtain ⟨tuned, hn⟩ := hrun.next 0
    obtain ⟨s, sug, h1, h2⟩ := hs 0 tuned
    rw [next_long I tuned (ts 0) m hm hmax hf s sug (d 0) h1 h2 (hlong 0)] at hn
    simp only [hq, if_true, Prod.mk.injEq, Except.ok.injEq] at hn
    obtain ⟨h3, h4⟩ := hn
    refine ⟨hmax, hf, rfl, ?_, h4.symm, by simp⟩
    rw [← h3]; simp
  | succ j ih =>
    intro hne
    obtain ⟨a1, a2, a3, a4, a5, -⟩ := ih fun i hi => hne i (by omega)
    have hqj := hne j (by omega)
    obtain ⟨outs, he⟩ := hrun.eval j
    rw [isTuned_queued I outs (vs j) (ts' j) hqj] at he
    simp only at he
    obtain ⟨tuned₀, hn₀⟩ := hrun.next j
    obtain ⟨s₀, sug₀, k1, k2⟩ := hs j tuned₀
    rw [next_long I tuned₀ (ts j) m hm a1 a2 s₀ sug₀ (d j) k1 k2 (hlong j)] at hn₀
    simp only [Prod.mk.injEq] at hn₀
    have b1 : (ts (j + 1)).maxStep = some m := by rw [← he, ← hn₀.1]; exact a1
    have b2 : (ts (j + 1)).lastFailed = false := by rw [← he, ← hn₀.1]; exact a2
    have b3 : (ts (j + 1)).maxNumber = (ts 0).maxNumber := by rw [← he, ← hn₀.1]; exact a3
    have b4 : (ts (j + 1)).queued = (ts' j).queued := by rw [← he]
    have b5 : (ts (j + 1)).lastVoltage = vs j := by rw [← he]
    obtain ⟨tuned, hn⟩ := hrun.next (j + 1)
    obtain ⟨s, sug, h1, h2⟩ := hs (j + 1) tuned
    rw [next_long I tuned (ts (j + 1)) m hm b1 b2 s sug (d (j + 1)) h1 h2 (hlong _)] at hn
    simp only [Prod.mk.injEq, Except.ok.injEq] at hn
    obtain ⟨h3, h4⟩ := hn
    refine ⟨b1, b2, b3, ?_, h4.symm, by intro _; simpa using b5⟩
    rw [← h3, b4]
    simp only [hqj, if_false]
    rw [a4]
    push_cast
    ring

/-! ## C20 -/

/-- **C20 (provable part).** Start after an evaluation that did not fail (nothing queued), with
`maximal_step_number ≥ 1`.  If all suggestions of the solver are longer than the maximal
step size `m`, the tuner evaluates its parameters after at most `maximal_step_number`
steps: one of the first `maximal_step_number` calls of `is_tuned` finds nothing queued.
Missing: suggestions that become shorter than `m` while steps are queued, see
`bounded_unevaluated_steps_refuted`. -/
theorem bounded_unevaluated_steps_partial [Fintype ι] (I : SolverI S ι)
    (ts ts' : Nat → SubsetTuner S ι) (vs : Nat → Volt ι) (hrun : StepRun I ts ts' vs)
    (m : ℝ) (hm : 0 < m) (hmax : (ts 0).maxStep = some m) (hf : (ts 0).lastFailed = false)
    (hq : (ts 0).queued = 0) (hN : 1 ≤ (ts 0).maxNumber) (d : Nat → ι → ℝ)
    (hs : ∀ k, SuggestsStep I ts k (d k)) (hlong : ∀ k, m < len (d k)) :
    ∃ j : Nat, (j : Int) < (ts 0).maxNumber ∧ (ts' j).queued = 0 := by
  by_contra hcon
  push Not at hcon
  have key := stepRun_long hrun m hm hmax hf hq d hs hlong
  set q := min ⌊len (d 0) / m⌋ (ts 0).maxNumber with hqdef
  have h1 : 1 ≤ ⌊len (d 0) / m⌋ := by
    rw [Int.le_floor]
    push_cast
    rw [le_div_iff₀ hm]
    linarith [hlong 0]
  have hq1 : 1 ≤ q := le_min h1 hN
  have hqN : q ≤ (ts 0).maxNumber := min_le_right _ _
  obtain ⟨n, hn⟩ := Int.eq_ofNat_of_zero_le (by omega : 0 ≤ q - 1)
  have hlt : ∀ i : Nat, i ≤ n → (ts' i).queued ≠ 0 := fun i hi => hcon i (by omega)
  have := (key n fun i hi => hlt i (by omega)).2.2.2.1
  exact hlt n le_rfl (by rw [this]; omega)

/-- A solver which always asks for the absolute voltage 2 V on the only gate – as a
`NewtonSolver` does while a gradient estimator requests a measurement
(solver.py:219-224). -/
noncomputable def fixedPointSolver : SolverI Unit (Fin 1) :=
  { constSolver goodTarget with suggest := fun _ s => (s, .ok fun _ => some (some 2)) }

/-- Tuner at voltage `v` with `q` queued steps, maximal step size 1 and at most 2 steps. -/
noncomputable def sliceTuner (v : ℝ) (q : Int) : SubsetTuner Unit (Fin 1) :=
  { newTuner goodTarget with
    maxStep := some 1, maxNumber := 2, queued := q, lastVoltage := fun _ => some v }

theorem sliceTuner_next (v : ℝ) (q : Int) (hv : v ≤ 2) :
    nextVoltages fixedPointSolver [] (sliceTuner v q) =
      if 1 < 2 - v then
        (sliceTuner v ((if q = 0 then min ⌊2 - v⌋ 2 else q) - 1), .ok fun _ => some (v + 1))
      else (sliceTuner v q, .ok fun _ => some 2) := by
  have hl : len (fun _ : Fin 1 => (2 : ℝ) - v) = 2 - v := by
    simp [len, Real.sqrt_sq (by linarith : (0 : ℝ) ≤ 2 - v)]
  have hd : vsub (overlay (sliceTuner v q).lastVoltage fun _ => some (some 2))
      (sliceTuner v q).lastVoltage = fun _ : Fin 1 => some (2 - v) := by
    funext i; simp [vsub, overlay, sliceTuner]
  split
  · rename_i hlt
    rw [next_long fixedPointSolver [] (sliceTuner v q) 1 one_pos rfl rfl ()
      (fun _ => some (some 2)) (fun _ => 2 - v) rfl hd (by rw [hl]; exact hlt), hl]
    simp only [sliceTuner, Prod.mk.injEq, Except.ok.injEq, SubsetTuner.mk.injEq, true_and, and_true]
    refine ⟨by norm_num, ?_⟩
    funext i
    have : (2 : ℝ) - v ≠ 0 := by linarith
    simp [vadd]
    field_simp
  · rename_i hlt
    unfold nextVoltages
    have : fixedPointSolver.suggest [] (sliceTuner v q).solver =
        ((), .ok fun _ => some (some 2)) := rfl
    rw [this]
    simp only [show (sliceTuner v q).lastFailed = false from rfl, Bool.false_eq_true, if_false]
    rw [show (vsub (overlay (sliceTuner v q).lastVoltage fun _ => some (some 2))
      (sliceTuner v q).lastVoltage) = fun _ : Fin 1 => some (2 - v) from hd]
    unfold slice
    rw [norm_real, hl]
    simp only [sliceTuner, hlt, if_false]
    simp only [newTuner, Prod.mk.injEq, true_and, Except.ok.injEq]
    funext i
    simp [vadd]

/-- **C20 is false in general**, even with a fixed suggestion: with maximal step size 1 and at
most two steps, a suggestion at distance 2 is reached after two slices, but one step stays
queued for ever: in the (only) run of this tuner, at *every* later call of `is_tuned` a step
is still queued, so the parameters are never evaluated again. -/
theorem bounded_unevaluated_steps_refuted :
    ∃ ts ts' : Nat → SubsetTuner Unit (Fin 1), ∃ vs : Nat → Volt (Fin 1),
      StepRun fixedPointSolver ts ts' vs ∧ (ts 0).queued = 0 ∧ (ts 0).lastFailed = false ∧
      (ts 0).maxNumber = 2 ∧ (∀ k, (ts' k).queued ≠ 0) ∧ (∀ k ≥ 1, vs k = fun _ => some 2) := by
  refine ⟨fun k => if k = 0 then sliceTuner 0 0 else if k = 1 then sliceTuner 1 1 else sliceTuner 2 1,
    fun k => if k = 0 then sliceTuner 0 1 else if k = 1 then sliceTuner 1 1 else sliceTuner 2 1,
    fun k => if k = 0 then fun _ => some 1 else fun _ => some 2, ⟨?_, ?_⟩, rfl, rfl, rfl, ?_, ?_⟩
  · intro k
    refine ⟨[], ?_⟩
    rcases k with _ | _ | k
    · simp only [if_true]
      rw [sliceTuner_next 0 0 (by norm_num), if_pos (by norm_num)]
      norm_num
    · simp only [zero_add, one_ne_zero, if_false, if_true]
      rw [sliceTuner_next 1 1 (by norm_num), if_neg (by norm_num)]
    · simp only [Nat.add_eq_zero_iff, one_ne_zero, and_false, if_false, Nat.succ_ne_zero,
        show k + 1 + 1 ≠ 1 by omega]
      rw [sliceTuner_next 2 1 (by norm_num), if_neg (by norm_num)]
  · intro k
    refine ⟨[], ?_⟩
    rcases k with _ | _ | k
    · rw [isTuned_queued _ _ _ _ (by simp [sliceTuner])]
      simp [sliceTuner]
    · rw [isTuned_queued _ _ _ _ (by simp [sliceTuner])]
      simp [sliceTuner]
    · rw [isTuned_queued _ _ _ _ (by simp [sliceTuner])]
      simp [sliceTuner]
  · intro k
    rcases k with _ | _ | k <;> simp [sliceTuner]
  · intro k hk
    simp [show k ≠ 0 by omega]

/-! ## C21 -/

/-- **C21.** A long step `d` (longer than the limit `m`) is executed in slices, the solver
suggesting each time the present position plus `d`.  Then, as long as no parameters have
been evaluated, after `j + 1` slices the voltages are `start + (j+1)·(m/‖d‖)·d`, and
`(j+1)·m ≤ ‖d‖`: the slices together never exceed the full step. -/
theorem queued_steps_do_not_overshoot [Fintype ι] (I : SolverI S ι)
    (ts ts' : Nat → SubsetTuner S ι) (vs : Nat → Volt ι) (hrun : StepRun I ts ts' vs)
    (m : ℝ) (hm : 0 < m) (hmax : (ts 0).maxStep = some m) (hf : (ts 0).lastFailed = false)
    (hq : (ts 0).queued = 0) (hN : 1 ≤ (ts 0).maxNumber) (d : ι → ℝ)
    (hs : ∀ k, SuggestsStep I ts k d) (hlong : m < len d)
    (start : ι → ℝ) (hstart : (ts 0).lastVoltage = fun i => some (start i)) :
    ∀ j, (∀ i < j, (ts' i).queued ≠ 0) →
      vs j = (fun i => some (start i + (j + 1) * (m / len d) * d i)) ∧
      ((j : ℝ) + 1) * m ≤ len d := by
  have key := stepRun_long hrun m hm hmax hf hq (fun _ => d) hs (fun _ => hlong)
  intro j hj
  constructor
  · induction j with
    | zero =>
      have := (key 0 hj).2.2.2.2.1
      rw [this, hstart]
      funext i
      simp [vadd]
    | succ j ih =>
      obtain ⟨-, -, -, -, h5, h6⟩ := key (j + 1) hj
      rw [h5, h6 (by omega)]
      simp only [Nat.add_sub_cancel]
      rw [ih fun i hi => hj i (by omega)]
      funext i
      simp only [vadd, Val.add_some, Option.some.injEq]
      push_cast
      ring
  · set q := min ⌊len d / m⌋ (ts 0).maxNumber with hqdef
    have h1 : 1 ≤ ⌊len d / m⌋ := by
      rw [Int.le_floor]
      push_cast
      rw [le_div_iff₀ hm]
      linarith
    have hq1 : 1 ≤ q := le_min h1 hN
    have hle : (j : Int) + 1 ≤ q := by
      by_contra hcon
      push Not at hcon
      obtain ⟨n, hn⟩ := Int.eq_ofNat_of_zero_le (by omega : 0 ≤ q - 1)
      have h := (key n fun i hi => hj i (by omega)).2.2.2.1
      exact hj n (by omega) (by rw [h]; omega)
    have : ((j : Int) + 1 : Int) ≤ ⌊len d / m⌋ := le_trans hle (min_le_left _ _)
    rw [Int.le_floor] at this
    push_cast at this
    rwa [le_div_iff₀ hm] at this

/-- A solver that keeps its position and always wants to go 5 V further. -/
noncomputable def relativeSolver : SolverI (Volt (Fin 1)) (Fin 1) where
  target _ := []
  setPosition v _ := v
  update v _ _ _ := (v, .ok ())
  suggest _ s := (s, .ok fun i => some (Val.add (s i) (some 5)))

/-- Non-vacuity of C20 (partial) and C21: a run of the relative solver with limit 1 and two
steps at most, all of whose suggestions are 5 V away. -/
example : ∃ (ts ts' : Nat → SubsetTuner (Volt (Fin 1)) (Fin 1)) (vs : Nat → Volt (Fin 1)),
    StepRun relativeSolver ts ts' vs ∧ (ts 0).maxStep = some 1 ∧ (ts 0).lastFailed = false ∧
    (ts 0).queued = 0 ∧ (ts 0).maxNumber = 2 ∧
    (∀ k, SuggestsStep relativeSolver ts k (fun _ => 5)) ∧
    1 < len (fun _ : Fin 1 => (5 : ℝ)) := by
  have h5 : len (fun _ : Fin 1 => (5 : ℝ)) = 5 := by simp [len]
  let Good : SubsetTuner (Volt (Fin 1)) (Fin 1) → Prop := fun t =>
    t.lastFailed = false ∧ t.maxStep = some 1 ∧ t.lastValues = [] ∧
      ∃ v : ℝ, t.solver = (fun _ => some v) ∧ t.lastVoltage = fun _ => some v
  let t₀ : SubsetTuner (Volt (Fin 1)) (Fin 1) :=
    { solver := fun _ => some 0, tunedVoltages := [], lastVoltage := fun _ => some 0
      lastValues := [], lastVariances := [], lastFailed := false, evaluatable := []
      maxStep := some 1, maxNumber := 2, queued := 0 }
  have hsug : ∀ t, Good t → ∀ tuned, ∃ s sug, relativeSolver.suggest tuned t.solver = (s, .ok sug) ∧
      vsub (overlay t.lastVoltage sug) t.lastVoltage = fun _ : Fin 1 => some 5 := by
    rintro t ⟨-, -, -, v, h1, h2⟩ tuned
    refine ⟨_, _, rfl, ?_⟩
    funext i
    simp [vsub, overlay, h1, h2]
  have hnext : ∀ t, Good t → ∃ t' v, nextVoltages relativeSolver [] t = (t', .ok v) ∧
      Good t' ∧ ∃ x : ℝ, v = fun _ => some x := by
    intro t ht
    obtain ⟨s, sug, h1, h2⟩ := hsug t ht []
    obtain ⟨g1, g2, g3, v, g4, g5⟩ := ht
    rw [next_long relativeSolver [] t 1 one_pos g2 g1 s sug (fun _ => 5) h1 h2 (by rw [h5]; norm_num)]
    refine ⟨_, _, rfl, ⟨g1, g2, g3, v, ?_, g5⟩, v + 1 / 5 * 5, ?_⟩
    · have : s = t.solver := by simp [relativeSolver] at h1; exact h1.1.symm
      rw [← g4, ← this]
    · funext i; simp [vadd, g5, h5]
  have heval : ∀ t v, Good t → (∃ x : ℝ, v = fun _ => some x) →
      Good (isTuned relativeSolver [] v t).1 := by
    rintro t v ⟨g1, g2, g3, -⟩ ⟨x, rfl⟩
    by_cases hq : t.queued = 0
    · unfold isTuned
      simp only [hq, ne_eq, not_true_eq_false, if_false, g3]
      simp [relativeSolver, evaluate, collect, Series.select, Target.names, rescaleValues,
        rescaleVariances, Series.index]
      exact ⟨rfl, g2, rfl, x, rfl, rfl⟩
    · rw [isTuned_queued _ _ _ _ hq]
      exact ⟨g1, g2, g3, x, rfl, rfl⟩
  choose! nx vx hnx using hnext
  let ts : Nat → SubsetTuner (Volt (Fin 1)) (Fin 1) := fun k =>
    Nat.rec t₀ (fun _ t => (isTuned relativeSolver [] (vx t) (nx t)).1) k
  have hgood : ∀ k, Good (ts k) := by
    intro k
    induction k with
    | zero => exact ⟨rfl, rfl, rfl, 0, rfl, rfl⟩
    | succ k ih => exact heval _ _ (hnx _ ih).2.1 (hnx _ ih).2.2
  exact ⟨ts, fun k => nx (ts k), fun k => vx (ts k),
    ⟨fun k => ⟨[], (hnx _ (hgood k)).1⟩, fun k => ⟨[], rfl⟩⟩, rfl, rfl, rfl, rfl,
    fun k tuned => hsug _ (hgood k) tuned, by rw [h5]; norm_num⟩

end Qtune.Tuner
