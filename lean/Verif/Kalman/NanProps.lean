import Verif.Kalman.NanModel

/-!
# C174: the gradient of a Kalman estimator stays a number
-/

namespace Qtune.Kalman

open Matrix

variable {σ : Type} [Fintype σ] [DecidableEq σ] {n : Nat}

/-! ## Specification -/

/-- Gradient and covariance are numbers. -/
def Numbers (e : NEst n) : Prop := (∀ i, e.estimate i ≠ none) ∧ ∀ i j, e.cov i j ≠ none

/-- All entries of gradient and covariance are NaN. -/
def Spoiled (e : NEst n) : Prop := (∀ i, e.estimate i = none) ∧ ∀ i j, e.cov i j = none

/-- Updates with values and variances that are numbers. -/
def NOp.Sound : NOp n → Prop
  | .update _ v c _ => v ≠ none ∧ c ≠ none
  | _ => True

/-! ## Lemmas -/

omit [DecidableEq σ] in
theorem nsum_none {f : σ → Val} {i : σ} (h : f i = none) : nsum f = none := if_pos ⟨i, h⟩

omit [DecidableEq σ] in
theorem nsum_some (f : σ → ℝ) : nsum (fun i => some (f i)) = some (∑ i, f i) := by
  rw [nsum, if_neg (by simp)]; rfl

omit [DecidableEq σ] in
theorem nsum_ne_none {f : σ → Val} (h : ∀ i, f i ≠ none) : nsum f ≠ none := by
  rw [nsum, if_neg (by simpa using h)]; simp

theorem add_ne_none {a b : Val} (ha : a ≠ none) (hb : b ≠ none) : Val.add a b ≠ none := by
  cases a <;> cases b <;> simp_all

theorem sub_ne_none {a b : Val} (ha : a ≠ none) (hb : b ≠ none) : Val.sub a b ≠ none := by
  cases a <;> cases b <;> simp_all

theorem mul_ne_none {a b : Val} (ha : a ≠ none) (hb : b ≠ none) : Val.mul a b ≠ none := by
  cases a <;> cases b <;> simp_all

omit [DecidableEq σ] in
theorem nmul_ne_none {A B : σ → σ → Val} (ha : ∀ i j, A i j ≠ none) (hb : ∀ i j, B i j ≠ none) (i j : σ) : nmul A B i j ≠ none :=
  nsum_ne_none fun _ => mul_ne_none (ha _ _) (hb _ _)

/-- All entries of the filter are NaN. -/
def NFilter.Nan (f : NFilter σ) : Prop := (∀ i, f.x i = none) ∧ ∀ i j, f.P i j = none

/-- No entry of the filter is NaN. -/
def NFilter.Real (f : NFilter σ) : Prop := (∀ i, f.x i ≠ none) ∧ ∀ i j, f.P i j ≠ none

omit [DecidableEq σ] in
theorem predict_nan [Nonempty σ] {f : NFilter σ} (h : f.Nan) : f.predict.Nan := by
  obtain ⟨k⟩ := ‹Nonempty σ›
  refine ⟨fun i => nsum_none (i := k) (by simp [h.1]), fun i j => ?_⟩
  have : nmul (nmul (fun i j => some (f.F i j)) f.P) (fun i j => some (f.F j i)) i j = none :=
    nsum_none (i := k) (by rw [nmul, nsum_none (i := k) (by simp [h.2])]; rfl)
  simp [NFilter.predict, this]

omit [DecidableEq σ] in
theorem predict_real {f : NFilter σ} (h : f.Real) : f.predict.Real := by
  refine ⟨fun i => nsum_ne_none fun j => mul_ne_none (by simp) (h.1 j), fun i j => ?_⟩
  exact add_ne_none (mul_ne_none (by simp) (nmul_ne_none (nmul_ne_none (by simp) h.2) (by simp) i j)) (by simp)

/-- If the innovation is NaN, everything is. -/
theorem correct_nan {f : NFilter σ} {z R : Val} {h : σ → ℝ} (hs : f.innovation R h = none) :
    (f.correct z R h).1.Nan ∧ (f.correct z R h).2 = .ok () := by
  have hK : ∀ i, f.gain R h i = none := fun i => by simp [NFilter.gain, hs]
  rw [NFilter.correct, if_neg (by rw [hs]; simp)]
  refine ⟨⟨fun i => ?_, fun i j => ?_⟩, rfl⟩
  · simp [hK]
  · simp [hK]

theorem correct_real {f : NFilter σ} (hf : f.Real) {z R : Val} (hz : z ≠ none) (hR : R ≠ none) (h : σ → ℝ) :
    (f.correct z R h).1.Real := by
  have hPH : ∀ i, (nsum fun j => Val.mul (f.P i j) (some (h j))) ≠ none := fun i =>
    nsum_ne_none fun j => mul_ne_none (hf.2 _ _) (by simp)
  have hS : f.innovation R h ≠ none := add_ne_none (nsum_ne_none fun i => mul_ne_none (by simp) (hPH i)) hR
  have hK : ∀ i, f.gain R h i ≠ none := fun i => mul_ne_none (hPH i) (by simpa using hS)
  rw [NFilter.correct]
  split
  · exact hf
  · refine ⟨fun i => ?_, fun i j => ?_⟩
    · exact add_ne_none (hf.1 i) (mul_ne_none (hK i) (sub_ne_none hz (nsum_ne_none fun j => mul_ne_none (by simp) (hf.1 j))))
    · refine add_ne_none (nmul_ne_none (nmul_ne_none (fun i j => ?_) hf.2) (fun i j => ?_) i j) (mul_ne_none (mul_ne_none (hK i) hR) (hK j))
      · exact sub_ne_none (by simp) (mul_ne_none (hK _) (by simp))
      · exact sub_ne_none (by simp) (mul_ne_none (hK _) (by simp))

omit [DecidableEq σ] in
theorem nan_innovation [Nonempty σ] {f : NFilter σ} (hf : f.Nan) (R : Val) (h : σ → ℝ) : f.innovation R h = none := by
  obtain ⟨k⟩ := ‹Nonempty σ›
  have : (nsum fun i => Val.mul (some (h i)) (nsum fun j => Val.mul (f.P i j) (some (h j)))) = none :=
    nsum_none (i := k) (by rw [nsum_none (i := k) (by simp [hf.2])]; rfl)
  rw [NFilter.innovation, this]; rfl

theorem spoiled_iff (e : NEst n) : Spoiled e ↔ e.filter.Nan := by
  constructor
  · rintro ⟨h1, h2⟩
    exact ⟨fun i => h1 (i.cast (one_mul n)), fun i j => h2 (i.cast (one_mul n)) (j.cast (one_mul n))⟩
  · rintro ⟨h1, h2⟩
    exact ⟨fun i => h1 _, fun i j => h2 _ _⟩

theorem numbers_iff (e : NEst n) : Numbers e ↔ e.filter.Real := by
  constructor
  · rintro ⟨h1, h2⟩
    exact ⟨fun i => h1 (i.cast (one_mul n)), fun i j => h2 (i.cast (one_mul n)) (j.cast (one_mul n))⟩
  · rintro ⟨h1, h2⟩
    exact ⟨fun i => h1 _, fun i j => h2 _ _⟩

/-- What `update` does to the filter: nothing, or prediction and correction. -/
theorem update_filter (e : NEst n) (p : Fin n → Val) (v c : Val) (b : Bool) :
    (e.update p v c b).1.filter = e.filter ∨
    ∃ v₀ h, e.value = some v₀ ∧ (e.update p v c b).1.filter = (e.filter.predict.correct (Val.sub v v₀) c h).1 := by
  unfold NEst.update
  cases hv : e.value with
  | none => exact .inl rfl
  | some v₀ =>
    dsimp only
    split
    · left; split <;> rfl
    · split
      · exact .inl rfl
      · right
        refine ⟨v₀, matrixH 1 (fun i => ((p i).sub (e.pos i)).getD 0) 0, rfl, ?_⟩
        split
        · rename_i f err hc; rw [hc]
        · rename_i f hc; rw [hc]; split <;> rfl

theorem apply_nan [NeZero n] {e : NEst n} (h : e.filter.Nan) (op : NOp n) : (op.apply e).filter.Nan := by
  cases op with
  | update p v c b =>
    rcases update_filter e p v c b with h1 | ⟨v₀, d, _, h1⟩
    · show ((e.update p v c b).1.filter).Nan; rw [h1]; exact h
    · show ((e.update p v c b).1.filter).Nan
      have : Nonempty (Fin (1 * n)) := ⟨⟨0, by rw [one_mul]; exact Nat.pos_of_ne_zero (NeZero.ne n)⟩⟩
      rw [h1]
      exact (correct_nan (nan_innovation (predict_nan h) _ _)).1
  | changePosition p => exact h
  | restart => exact h

theorem run_nan [NeZero n] : ∀ (ops : List (NOp n)) {e : NEst n}, e.filter.Nan → (e.run ops).filter.Nan
  | [], _, h => h
  | op :: ops, _, h => run_nan ops (apply_nan h op)

/-! ## C174 -/

/-- **C174** (partial: not if a variance is NaN): as long as values and variances are numbers, gradient and covariance are numbers, in all sequences
of updates, changes of the position and restarts. -/
theorem kalman_numbers_partial : ∀ (ops : List (NOp n)) (e : NEst n), Numbers e → (∀ v, e.value = some v → v ≠ none) →
    (∀ op ∈ ops, op.Sound) → Numbers (e.run ops)
  | [], _, h, _, _ => h
  | op :: ops, e, h, hv, hs => by
    have hop := hs op (by simp)
    refine kalman_numbers_partial ops (op.apply e) ?_ ?_ fun o ho => hs o (by simp [ho])
    · rw [numbers_iff] at h ⊢
      cases op with
      | update p v c b =>
        show ((e.update p v c b).1.filter).Real
        rcases update_filter e p v c b with h1 | ⟨v₀, d, hv0, h1⟩
        · rw [h1]; exact h
        · rw [h1]
          exact correct_real (predict_real h) (sub_ne_none hop.1 (hv v₀ hv0)) hop.2 _
      | changePosition p => exact h
      | restart => exact h
    · intro v' hv'
      cases op with
      | update p v c b =>
        have : (e.update p v c b).1.value = e.value ∨ (e.update p v c b).1.value = some v := by
          unfold NEst.update
          cases hv : e.value with
          | none => exact .inr rfl
          | some v₀ =>
            dsimp only
            split
            · split
              · exact .inr rfl
              · exact .inl hv
            · split
              · exact .inl hv
              · split
                · exact .inl rfl
                · split
                  · exact .inr rfl
                  · exact .inl rfl
        change (e.update p v c b).1.value = some v' at hv'
        rcases this with h1 | h1
        · exact hv v' (h1 ▸ hv')
        · rw [h1] at hv'; rw [← Option.some.inj hv']; exact hop.1
      | changePosition p => exact hv v' hv'
      | restart => cases hv'

/-- **C174** refuted: the first update whose variance is NaN, for a point that is not closer than 1e-7 to the reference point, returns normally and
makes all entries of gradient and covariance NaN, and they stay so, whatever is measured later, also after a restart. -/
theorem kalman_numbers_refuted [NeZero n] (e : NEst n) (v₀ : Val) (hv : e.value = some v₀) (p q : Fin n → ℝ) (hq : ∀ i, e.pos i = some (q i))
    (hd : ¬ Real.sqrt (∑ i, (p i - q i) ^ 2) < 1 / 10000000) (v : Val) (b : Bool) (ops : List (NOp n)) :
    (e.update (fun i => some (p i)) v none b).2 = .ok () ∧
    Spoiled ((e.update (fun i => some (p i)) v none b).1.run ops) := by
  have hdiff : ∀ i, Val.sub (some (p i)) (e.pos i) = some (p i - q i) := fun i => by rw [hq]; rfl
  have hS : ∀ h, e.filter.predict.innovation none h = none := fun h => by simp [NFilter.innovation]
  have key : (e.update (fun i => some (p i)) v none b).2 = .ok () ∧ (e.update (fun i => some (p i)) v none b).1.filter.Nan := by
    unfold NEst.update
    rw [hv]
    dsimp only
    rw [if_neg (by simpa only [hdiff, Option.getD_some] using hd), if_neg (by simp [hdiff])]
    have hc := correct_nan (z := Val.sub v v₀) (hS (matrixH 1 (fun i => (Val.sub (some (p i)) (e.pos i)).getD 0) 0))
    split
    · rename_i f err h; rw [h] at hc; cases hc.2
    · rename_i f h
      rw [h] at hc
      refine ⟨rfl, ?_⟩
      split <;> exact hc.1
  exact ⟨key.1, (spoiled_iff _).2 (run_nan ops key.2)⟩

/-! ## The model without NaN is this model -/

/-- The filter of the model for numbers, as a filter of this model. -/
def Filter.lift (f : Filter σ (Fin 1)) : NFilter σ := ⟨fun i => some (f.x i), fun i j => some (f.P i j), f.F, f.Q, f.alpha⟩

omit [DecidableEq σ] in
theorem lift_predict (f : Filter σ (Fin 1)) : (f.predict none).lift = f.lift.predict := by
  simp only [Filter.lift, Filter.predict, NFilter.predict, nmul, Val.mul_some, nsum_some, Val.add_some, NFilter.mk.injEq, and_true]
  refine ⟨rfl, ?_⟩
  funext i j
  simp [Matrix.mul_apply, Matrix.add_apply]

omit [DecidableEq σ] in
theorem lift_innovation (f : Filter σ (Fin 1)) (c : ℝ) (H : Matrix (Fin 1) σ ℝ) :
    f.lift.innovation (some c) (H 0) = some (f.innovation (c • 1) H 0 0) := by
  simp only [Filter.lift, Filter.innovation, NFilter.innovation, Val.mul_some, nsum_some, Val.add_some, Option.some.injEq]
  simp [Matrix.mul_apply, Matrix.add_apply]

omit [DecidableEq σ] in
theorem lift_gain (f : Filter σ (Fin 1)) (c : ℝ) (H : Matrix (Fin 1) σ ℝ) (hS : (f.innovation (c • 1) H).det ≠ 0) (i : σ) :
    f.lift.gain (some c) (H 0) i = some (f.gain (c • 1) H i 0) := by
  have h00 : f.innovation (c • 1) H 0 0 ≠ 0 := by rwa [Matrix.det_fin_one] at hS
  have hinv : (f.innovation (c • 1) H)⁻¹ 0 0 = (f.innovation (c • 1) H 0 0)⁻¹ := by
    have h := Matrix.mul_nonsing_inv (f.innovation (c • 1) H) (isUnit_iff_ne_zero.2 hS)
    have h' := congrFun (congrFun h 0) 0
    rw [Matrix.mul_apply, Fin.sum_univ_one, Matrix.one_apply_eq] at h'
    exact eq_inv_of_mul_eq_one_right h'
  rw [NFilter.gain, lift_innovation]
  simp only [Filter.lift, Val.mul_some, nsum_some, Option.map_some, Option.some.injEq]
  rw [Filter.gain, Matrix.mul_apply, Fin.sum_univ_one, hinv, Matrix.mul_apply]
  rfl

/-- **C174**: on numbers the model with NaN does what the model for numbers does, which C43 to C49 are about. -/
theorem nan_model_on_numbers (f : Filter σ (Fin 1)) (z c : ℝ) (H : Matrix (Fin 1) σ ℝ) :
    ((f.correct (fun _ => z) (some (c • 1)) H).1.lift, (f.correct (fun _ => z) (some (c • 1)) H).2)
      = f.lift.correct (some z) (some c) (H 0) ∧ (f.predict none).lift = f.lift.predict := by
  refine ⟨?_, lift_predict f⟩
  rw [NFilter.correct, lift_innovation]
  by_cases hS : (f.innovation (c • 1) H).det = 0
  · have h00 : f.innovation (c • 1) H 0 0 = 0 := by rwa [Matrix.det_fin_one] at hS
    rw [Filter.correct]
    simp only [Option.getD_some, hS, h00, if_true]
  · have h00 : f.innovation (c • 1) H 0 0 ≠ 0 := by rwa [Matrix.det_fin_one] at hS
    rw [Filter.correct]
    simp only [Option.getD_some, hS, if_false, Option.some.injEq, h00, lift_gain f c H hS]
    simp only [Filter.lift, Val.mul_some, nsum_some, Val.add_some, Val.sub_some, nmul, Prod.mk.injEq, NFilter.mk.injEq, and_true]
    refine ⟨?_, ?_⟩
    · funext i
      simp [Matrix.mulVec, dotProduct]
    · funext i j
      simp only [Matrix.add_apply, Matrix.mul_apply, Matrix.one_apply, Matrix.sub_apply, Matrix.transpose_apply, Fin.sum_univ_one,
        Matrix.smul_apply, smul_eq_mul, if_true, mul_one]

/-- The estimator of the model for numbers, as an estimator of this model. -/
def Est.lift (e : Est n) : NEst n := ⟨e.filter.lift, e.pos, e.value.map some⟩

/-- **C174**: updates with numbers do the same in both models. -/
theorem nan_update_on_numbers (e : Est n) (p : Fin n → Val) (v c : ℝ) (b : Bool) :
    ((e.update p v c b).1.lift, (e.update p v c b).2) = e.lift.update p (some v) (some c) b := by
  unfold Est.update NEst.update
  cases hv : e.value with
  | none => simp [Est.lift, hv]
  | some v₀ =>
    have hl : e.lift.value = some (some v₀) := by simp [Est.lift, hv]
    rw [hl]
    dsimp only
    have hp : e.lift.pos = e.pos := rfl
    rw [hp]
    split
    · split <;> simp [Est.lift, hv]
    · split
      · simp [Est.lift]
      · have h := (nan_model_on_numbers (e.filter.predict none) (v - v₀) c
          (matrixH 1 fun i => ((p i).sub (e.pos i)).getD 0)).1
        rw [lift_predict] at h
        have hu : e.filter.update (fun i => ((p i).sub (e.pos i)).getD 0) (fun _ => v - v₀) (some (c • 1)) none true
            = (e.filter.predict none).correct (fun _ => v - v₀) (some (c • 1)) (matrixH 1 fun i => ((p i).sub (e.pos i)).getD 0) := rfl
        rw [hu]
        have hr : Val.sub (some v) (some v₀) = some (v - v₀) := rfl
        have hf : e.lift.filter = e.filter.lift := rfl
        rw [hr, hf, ← h]
        generalize (e.filter.predict none).correct (fun _ => v - v₀) (some (c • 1)) (matrixH 1 fun i => ((p i).sub (e.pos i)).getD 0) = r
        obtain ⟨f, (err | u)⟩ := r
        · simp [Est.lift, hv]
        · cases b <;> simp [Est.lift, hv]

/-! ## Examples -/

/-- An estimator for two gates with known gradient. -/
noncomputable def sampleNEst : NEst 2 := ⟨⟨fun _ => some 1, fun i j => some (if i = j then 1 else 0), 1, 0, 1⟩, fun _ => some 0, some (some 0)⟩

/-- The hypotheses of `kalman_numbers_partial` hold for it. -/
example : Numbers sampleNEst ∧ (∀ v, sampleNEst.value = some v → v ≠ none) ∧
    ∀ op ∈ [NOp.update (fun _ => some 1) (some 3) (some (1 / 10)) true, .restart], NOp.Sound (n := 2) op := by
  refine ⟨⟨fun i => by simp [NEst.estimate, sampleNEst], fun i j => by simp [NEst.cov, sampleNEst]⟩, ?_, ?_⟩
  · rintro v h; cases h; simp
  · intro op hop
    simp only [List.mem_cons, List.not_mem_nil, or_false] at hop
    rcases hop with rfl | rfl <;> simp [NOp.Sound]

/-- One evaluation without variance at (1, 1) spoils it. -/
example : Spoiled (((sampleNEst.update (fun _ => some 1) (some 3) none true).1).run [.restart, .update (fun _ => some 2) (some 3) (some 1) true]) :=
  (kalman_numbers_refuted sampleNEst (some 0) rfl (fun _ => 1) (fun _ => 0) (fun _ => rfl)
    (by
      have h2 : (∑ _i : Fin 2, (1 - 0 : ℝ) ^ 2) = 2 := by norm_num
      rw [h2, not_lt]
      exact le_trans (by norm_num) (Real.one_le_sqrt.2 (by norm_num : (1 : ℝ) ≤ 2))) (some 3) true _).2

end Qtune.Kalman
