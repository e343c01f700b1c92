import Verif.EndToEnd.Learning
import Verif.EndToEnd.Steps

/-! # Phases of a tuning in which Kalman estimators learn the gradients -/

namespace Qtune.EndToEnd

open Matrix Qtune.Tuner Qtune.Gradient Qtune.Autotuner Qtune.Kalman

variable {n m : Nat}

theorem miss_add {S : Setup n m} (hS : S.Valid) (q x : Vec n) : S.miss (q + x) = S.miss q - act S.slope x := by
  funext k
  have haff := (Setup.scaled_affine hS.affine k).sub (q + x) q
  simp only [add_sub_cancel_left] at haff
  have e : act S.slope x k = ∑ i, S.grad k i / S.scale k * x i := rfl
  simp only [Setup.miss, Pi.sub_apply, e, ← haff, Setup.scaled]
  ring

/-- Kalman estimators are asked one after the other. -/
theorem ask_kalman {eigh : Eigh} {nullspace : Nullspace} {gates : List (Fin n)} {tj : Option (List (Fin n → Val))}
    (hn : n ≠ 0) (res : List (Row × Est n)) (hd : ∀ re ∈ res, re.1.desired ≠ none) :
    (∀ re ∈ res, (kalmanI eigh nullspace).require gates tj re.2 = (re.2, .ok none)) ∨
    ∃ re ∈ res, ∃ q : Fin n → Val,
      (kalmanI eigh nullspace).require gates tj re.2 = (re.2, .ok (some fun i => some (q i))) ∧
      Newton.ask (kalmanI eigh nullspace) gates tj res = (res.map Prod.snd, .ok (some fun i => some (q i))) := by
  have key : ∀ e : Est n, (kalmanI eigh nullspace).require gates tj e = (e, .ok none) ∨
      ∃ q : Fin n → Val, (kalmanI eigh nullspace).require gates tj e = (e, .ok (some fun i => some (q i))) := by
    intro e
    cases tj with
    | none =>
      cases h : e.require eigh gates with
      | none => left; simp [kalmanI, h]
      | some q => right; exact ⟨q, by simp [kalmanI, h]⟩
    | some rows =>
      simp only [kalmanI]
      generalize e.requireTuned nullspace gates.get
          (Matrix.of fun (k : Fin rows.length) a => (rows.get k (gates.get a)).getD 0) = o
      cases o with
      | none => left; rfl
      | some q => right; exact ⟨q, rfl⟩
  induction res with
  | nil => left; simp
  | cons re res ih =>
    obtain ⟨r, e⟩ := re
    have hr : r.desired.isNone = false := by
      have := hd (r, e) (by simp)
      simpa using Option.isSome_iff_ne_none.2 this
    rcases key e with h | ⟨q, h⟩
    · rcases ih (fun re hre => hd re (by simp [hre])) with hall | ⟨re, hre, q, hq, hask⟩
      · left
        intro re hre
        rcases List.mem_cons.1 hre with rfl | hre
        · exact h
        · exact hall re hre
      · right
        refine ⟨re, by simp [hre], q, hq, ?_⟩
        unfold Newton.ask
        rw [hr, h]
        simp [hask]
    · right
      refine ⟨(r, e), by simp, q, h, ?_⟩
      have : ∃ i : Fin n, (some (q i) : Option Val) ≠ none := ⟨⟨0, by omega⟩, by simp⟩
      unfold Newton.ask
      rw [hr, h]
      dsimp only
      rw [if_neg Bool.false_ne_true, if_pos this]
      rfl

/-- All estimators are at `q` and learn. -/
def Learning (S : Setup n m) (l ε : ℝ) (χ : Fin m → ℝ) (q : Vec n) (E : Fin m → Est n) : Prop :=
  ∀ k, Learns (S.slope k) l ε (χ k) (E k) ∧ MeasuredAt (S.scaled k) q (E k)

/-- No estimator is too uncertain. -/
def Sure (l : ℝ) (E : Fin m → Est n) : Prop :=
  ∀ k, ∀ v : Vec n, ∑ i, v i ^ 2 = 1 → variance (E k).cov v ≤ l

/-- The sum of all variances. -/
def allVariances (E : Fin m → Est n) : ℝ := ∑ k, ∑ i, (E k).cov i i

theorem total_cov (e : Est n) : total e.filter = ∑ i, e.cov i i := by
  unfold total
  have := wide_sum fun i => e.cov i i
  rw [← this]
  rfl

/-- What an evaluation at `q` does to the estimators. -/
theorem learning_update {S : Setup n m} (hS : S.Valid) {l ε : ℝ} {χ : Fin m → ℝ} {eigh : Eigh} {nullspace : Nullspace}
    {E : Fin m → Est n}
    (hE : ∀ k, Learns (S.slope k) l ε (χ k) (E k) ∧ ((E k).value = none ∨ Measured (S.scaled k) (E k)))
    (hpos : ∀ k, ∀ y ∈ S.seen k, 0 < y) (q : Vec n) (k : Fin m) (y : ℝ) (hy : y ∈ S.seen k) :
    ∃ e', (kalmanI eigh nullspace).update (volts q) (some (S.scaled k q)) (some y) (E k) = (e', .ok ()) ∧
      (Learns (S.slope k) l ε (χ k) e' ∧ MeasuredAt (S.scaled k) q e') ∧
      (∀ v : Vec n, variance e'.cov v ≤ variance (E k).cov v) ∧ ∑ i, e'.cov i i ≤ ∑ i, (E k).cov i i := by
  obtain ⟨e', he', h1, h2, h3⟩ := learn_update (hE k).1 (Setup.scaled_affine hS.affine k) (hE k).2 q (hpos k y hy)
  refine ⟨e', he', ⟨h1, h2⟩, h3, Finset.sum_le_sum fun i _ => ?_⟩
  have hd : ∀ e : Est n, variance e.cov (Pi.single i 1) = e.cov i i := by
    intro e
    unfold variance
    rw [Finset.sum_eq_single i, Finset.sum_eq_single i]
    · simp
    · intro j _ hj; simp [hj]
    · simp
    · intro j _ hj; simp [hj]
    · simp
  rw [← hd, ← hd]
  exact h3 _

/-- Nobody requests anything: the Newton step reduces what is missing. -/
theorem sure_suggestion {S : Setup n m} (hS : S.Valid) (hn : n ≠ 0) {μ : Val × Int} {eigh : Eigh} (heigh : EighSpec eigh)
    {nullspace : Nullspace} (hnull : NullspaceSpec nullspace) {lstsq : Newton.Lstsq (Fin n)}
    (hls : Newton.LstsqSpec lstsq) {l ε : ℝ} (hl : 0 < l) {χ : Fin m → ℝ} {σ ρ : ℝ}
    (hσ : ∀ x : Fin m → ℝ, σ * len x ≤ len (comb S.slope x)) (hρ0 : 0 ≤ ρ) (hρσ : ρ < σ)
    (hρ : l * ∑ k, χ k ≤ ρ ^ 2) {E : Fin m → Est n} {q : Vec n} {t : OneTuner (Est n) n} (h : At S μ E q t)
    (hE : Learning S l ε χ q E) (hsure : Sure l E) :
    ∃ x : Vec n, Newton.suggest (kalmanI eigh nullspace) lstsq [] t.solver =
        ({ t.solver with ests := List.ofFn E }, .ok fun i => some (some ((q + x) i))) ∧
      len (S.miss (q + x)) ≤ ρ / (σ - ρ) * len (S.miss q) := by
  let G : Fin m → Fin n → ℝ := fun k => (E k).estimate
  have hfrob : frob (G - S.slope) ≤ ρ := by
    have h1 : frob (G - S.slope) ^ 2 ≤ ρ ^ 2 := by
      rw [frob_sq]
      refine le_trans ?_ hρ
      rw [Finset.mul_sum]
      exact Finset.sum_le_sum fun k _ => (hE k).1.close hl (hsure k)
    exact (le_abs_self _).trans (abs_le_of_sq_le_sq h1 hρ0)
  have hτ : 0 < σ - ρ := by linarith
  have hcond := perturbed hσ hfrob
  obtain ⟨x, hsug, hxG, hxs⟩ := known_suggestion hS.toSound (I := kalmanI eigh nullspace) hls h (G := G) (fun k tj => by
    exact certain_silent (g := (E k).estimate) hl
      ⟨(hE k).1.static, rfl, (hE k).1.psd, (hE k).1.limit, hsure k⟩ (hE k).2.measured heigh hnull hS.gates_nodup hn tj)
    (fun k => rfl) hτ hcond
  refine ⟨x, hsug, ?_⟩
  have hmiss : S.miss (q + x) = act (G - S.slope) x := by
    rw [miss_add hS, ← hxG]
    funext k
    simp only [act, Pi.sub_apply, ← Finset.sum_sub_distrib, sub_mul]
  rw [hmiss, div_mul_eq_mul_div, le_div_iff₀ hτ]
  have h1 := act_le (G - S.slope) x
  have h2 : frob (G - S.slope) * len x ≤ ρ * len x := mul_le_mul_of_nonneg_right hfrob (len_nonneg x)
  have h3 := mul_le_mul_of_nonneg_left hxs hρ0
  nlinarith [mul_le_mul_of_nonneg_right (h1.trans h2) hτ.le]

/-- Newton steps until the set points are met. -/
theorem sure_phase {S : Setup n m} (hS : S.Valid) (hn : n ≠ 0) {μ : Val × Int} (hμ : μ.1 = none) {eigh : Eigh}
    (heigh : EighSpec eigh) {nullspace : Nullspace} (hnull : NullspaceSpec nullspace) {lstsq : Newton.Lstsq (Fin n)}
    (hls : Newton.LstsqSpec lstsq) {l ε : ℝ} (hl : 0 < l) {χ : Fin m → ℝ} {σ ρ : ℝ}
    (hσ : ∀ x : Fin m → ℝ, σ * len x ≤ len (comb S.slope x)) (hρ0 : 0 ≤ ρ) (hρσ : ρ < σ)
    (hρ : l * ∑ k, χ k ≤ ρ ^ 2) (hpos : ∀ k, ∀ y ∈ S.seen k, 0 < y) (N : Nat) :
    ∀ (E : Fin m → Est n) (q : Vec n) (t : OneTuner (Est n) n), At S μ E q t → Learning S l ε χ q E → Sure l E →
      (∀ k tol, (S.row k).tolerance = some tol → (ρ / (σ - ρ)) ^ (N + 1) * len (S.miss q) < tol) →
      CompletesWithin S (kalmanI eigh nullspace) lstsq (3 * (N + 1)) ⟨t, volts q, 0, true, none⟩ := by
  have hκ : 0 ≤ ρ / (σ - ρ) := div_nonneg hρ0 (by linarith)
  induction N with
  | zero =>
    intro E q t h hE hsure htol
    obtain ⟨x, hsug, hmiss⟩ := sure_suggestion hS hn heigh hnull hls hl hσ hρ0 hρσ hρ h hE hsure
    obtain ⟨t', hnext, hbase⟩ := suggestion (E' := E) (q' := q + x) h (by rw [hμ]; simp) hsug
    refine cycle_or hS.toSound hnext hbase ?_ 0 ?_
    · intro k y hy
      obtain ⟨e', he', -⟩ := learning_update hS (eigh := eigh) (nullspace := nullspace)
        (fun k => ⟨(hE k).1, .inr (hE k).2.measured⟩) hpos (q + x) k y hy
      exact ⟨e', he'⟩
    · intro y t'' _ hnot _
      exfalso
      refine hnot (met_of_small fun k tol hk => lt_of_le_of_lt hmiss ?_)
      simpa using htol k tol hk
  | succ N ih =>
    intro E q t h hE hsure htol
    obtain ⟨x, hsug, hmiss⟩ := sure_suggestion hS hn heigh hnull hls hl hσ hρ0 hρσ hρ h hE hsure
    obtain ⟨t', hnext, hbase⟩ := suggestion (E' := E) (q' := q + x) h (by rw [hμ]; simp) hsug
    have hup := learning_update hS (eigh := eigh) (nullspace := nullspace)
      (fun k => ⟨(hE k).1, .inr (hE k).2.measured⟩) hpos (q + x)
    have := cycle_or (q := q) hS.toSound hnext hbase (fun k y hy => by
      obtain ⟨e', he', -⟩ := hup k y hy
      exact ⟨e', he'⟩) (3 * (N + 1)) (fun y t'' hy _ hAt => by
        refine ih _ _ _ hAt ?_ ?_ ?_
        · intro k
          obtain ⟨e', he', h', -⟩ := hup k (y k) (hy k)
          dsimp only
          rw [he']
          exact h'
        · intro k v hv
          obtain ⟨e', he', -, hvar, -⟩ := hup k (y k) (hy k)
          dsimp only
          rw [he']
          exact (hvar v).trans (hsure k v hv)
        · intro k tol hk
          refine lt_of_le_of_lt ?_ (htol k tol hk)
          rw [pow_succ _ (N + 1), mul_assoc]
          exact mul_le_mul_of_nonneg_left hmiss (pow_nonneg hκ _))
    obtain ⟨M, hM, hc⟩ := this
    exact ⟨M, by omega, hc⟩

/-- Somebody requests a measurement. -/
theorem unsure_suggestion {S : Setup n m} (hS : S.Valid) (hn : n ≠ 0) {μ : Val × Int} {eigh : Eigh} (heigh : EighSpec eigh)
    {nullspace : Nullspace} {lstsq : Newton.Lstsq (Fin n)} {l ε : ℝ} (hl : 0 < l) {χ : Fin m → ℝ}
    {E : Fin m → Est n} {q : Vec n} {t : OneTuner (Est n) n} (h : At S μ E q t) (hE : Learning S l ε χ q E)
    (hunsure : ¬ Sure l E) :
    ∃ (k : Fin m) (v : Vec n), ∑ i, v i ^ 2 = 1 ∧ l < variance (E k).cov v ∧
      Newton.suggest (kalmanI eigh nullspace) lstsq [] t.solver =
        ({ t.solver with ests := List.ofFn E }, .ok fun i => some (some ((q + ε • v) i))) := by
  have htj : Newton.tunedJacobian (kalmanI eigh nullspace) [] t.solver = .ok none :=
    (Newton.tuned_jacobian_rows (kalmanI eigh nullspace) [] t.solver).1 (by simp)
  have hlen : t.solver.target.length = t.solver.ests.length := by
    rw [h.target, h.ests]; simp [Setup.target]
  have hsnd : (t.solver.target.zip t.solver.ests).map Prod.snd = t.solver.ests := List.map_snd_zip (by omega)
  have hnew : ∀ k, E k = Est.new (E k).filter q (E k).value (fun _ => .fin l) (fun _ => ε) := by
    intro k
    obtain ⟨p, hp, hpos⟩ := ((hE k).1.steady (hE k).2.1).new
    have : p = q := by
      have := (hE k).2.1
      rw [hpos] at this
      funext i
      have := congrFun this i
      simpa [volts] using this
    rw [this] at hp
    exact hp
  have hreq := fun k => kalman_request heigh hS.gates_nodup (E k).filter (hE k).1.psd q (E k).value (fun _ => ε) l hl
  have hd : ∀ re ∈ t.solver.target.zip t.solver.ests, re.1.desired ≠ none := by
    intro re hre
    have hmem := (List.of_mem_zip hre).1
    rw [h.target] at hmem
    obtain ⟨k, hk⟩ := (List.mem_ofFn' _ _).1 hmem
    rw [← hk, hS.desired k]
    simp
  rcases ask_kalman (eigh := eigh) (nullspace := nullspace) (gates := t.solver.gates) (tj := none) hn _ hd with
    hall | ⟨re, hre, p, hp, hask⟩
  · exfalso
    apply hunsure
    intro k v hv
    have hk : (S.row k, E k) ∈ t.solver.target.zip t.solver.ests := by
      rw [h.target, h.ests]
      unfold Setup.target
      rw [List.mem_iff_getElem]
      exact ⟨k.1, by simp, by simp⟩
    have := hall _ hk
    simp only [kalmanI, Prod.mk.injEq, true_and, Except.ok.injEq, Option.map_eq_none_iff, h.gates] at this
    have h1 := (hreq k).1
    rw [← hnew k] at h1
    exact h1.1 this v ⟨hv, fun i hi => absurd (hS.gates_all i) hi⟩
  · have hmem := (List.of_mem_zip hre).2
    rw [h.ests] at hmem
    obtain ⟨k, hk⟩ := (List.mem_ofFn' _ _).1 hmem
    have hpk : (E k).require eigh S.gates = some p := by
      rw [← hk] at hp
      simp only [kalmanI, Prod.mk.injEq, true_and, Except.ok.injEq, Option.map_eq_some_iff, h.gates] at hp
      obtain ⟨p', hp', he⟩ := hp
      rw [hp']
      congr 1
      funext i
      have := congrFun he i
      simpa using this
    have h2 := (hreq k).2 p
    rw [← hnew k] at h2
    obtain ⟨v, hv, hlt, -, rfl⟩ := h2 hpk
    refine ⟨k, v, hv.unit, hlt, ?_⟩
    unfold Newton.suggest
    rw [htj]
    simp only [hask, hsnd]
    rw [h.ests]
    rfl

/-- Requests until nobody is uncertain, then Newton steps. -/
theorem learning_phase {S : Setup n m} (hS : S.Valid) (hn : n ≠ 0) {μ : Val × Int} (hμ : μ.1 = none) {eigh : Eigh}
    (heigh : EighSpec eigh) {nullspace : Nullspace} (hnull : NullspaceSpec nullspace) {lstsq : Newton.Lstsq (Fin n)}
    (hls : Newton.LstsqSpec lstsq) {l ε r : ℝ} (hl : 0 < l) (hε : 1 / 10000000 ≤ |ε|) {χ : Fin m → ℝ} {σ ρ : ℝ}
    (hσ : ∀ x : Fin m → ℝ, σ * len x ≤ len (comb S.slope x)) (hρ0 : 0 ≤ ρ) (hρσ : ρ < σ)
    (hρ : l * ∑ k, χ k ≤ ρ ^ 2) (hpos : ∀ k, ∀ y ∈ S.seen k, 0 < y ∧ y ≤ r) (N R : Nat) :
    ∀ (E : Fin m → Est n) (q : Vec n) (t : OneTuner (Est n) n), At S μ E q t → Learning S l ε χ q E →
      allVariances E ≤ R * (ε ^ 2 * l ^ 2 / (ε ^ 2 * l + r)) →
      (∀ k tol, (S.row k).tolerance = some tol →
        (ρ / (σ - ρ)) ^ (N + 1) * (len (S.miss q) + R * (|ε| * frob S.slope)) < tol) →
      CompletesWithin S (kalmanI eigh nullspace) lstsq (3 * (R + N + 1)) ⟨t, volts q, 0, true, none⟩ := by
  have hκ : 0 ≤ ρ / (σ - ρ) := div_nonneg hρ0 (by linarith)
  have hstep : 0 ≤ |ε| * frob S.slope := mul_nonneg (abs_nonneg _) (frob_nonneg _)
  have hε0 : ε ≠ 0 := by
    rintro rfl
    norm_num at hε
  -- a state without requests
  have hdone : ∀ (R : Nat) (E : Fin m → Est n) (q : Vec n) (t : OneTuner (Est n) n), At S μ E q t →
      Learning S l ε χ q E → Sure l E → (∀ k tol, (S.row k).tolerance = some tol →
        (ρ / (σ - ρ)) ^ (N + 1) * (len (S.miss q) + R * (|ε| * frob S.slope)) < tol) →
      CompletesWithin S (kalmanI eigh nullspace) lstsq (3 * (R + N + 1)) ⟨t, volts q, 0, true, none⟩ := by
    intro R E q t h hE hsure htol
    obtain ⟨M, hM, hc⟩ := sure_phase hS hn hμ heigh hnull hls hl hσ hρ0 hρσ hρ (fun k y hy => (hpos k y hy).1) N E q t
      h hE hsure fun k tol hk => lt_of_le_of_lt
        (mul_le_mul_of_nonneg_left (le_add_of_nonneg_right (mul_nonneg (Nat.cast_nonneg R) hstep)) (pow_nonneg hκ _))
        (htol k tol hk)
    exact ⟨M, by omega, hc⟩
  have hnn : ∀ (E : Fin m → Est n) (q : Vec n), Learning S l ε χ q E → ∀ k, 0 ≤ ∑ i, (E k).cov i i := by
    intro E q hE k
    rw [← total_cov]
    exact total_nonneg (hE k).1.psd
  -- a request
  have hask : ∀ (E : Fin m → Est n) (q : Vec n) (t : OneTuner (Est n) n), At S μ E q t →
      Learning S l ε χ q E → ¬ Sure l E → ∃ (v : Vec n) (t' : OneTuner (Est n) n), ∑ i, v i ^ 2 = 1 ∧
        nextVoltages (Newton.solver (kalmanI eigh nullspace) lstsq) [] t = (t', .ok (volts (q + ε • v))) ∧ Base S μ E t' ∧
        ∀ y : Fin m → ℝ, (∀ k, y k ∈ S.seen k) →
          allVariances (fun k => ((kalmanI eigh nullspace).update (volts (q + ε • v)) (some (S.scaled k (q + ε • v)))
            (some (y k)) (E k)).1) ≤ allVariances E - ε ^ 2 * l ^ 2 / (ε ^ 2 * l + r) := by
    intro E q t h hE hsure
    obtain ⟨k₀, v, hv, hlt, hsug⟩ := unsure_suggestion (eigh := eigh) (nullspace := nullspace) (lstsq := lstsq) hS hn heigh hl
      h hE hsure
    obtain ⟨t', hnext, hbase⟩ := suggestion (E' := E) (q' := q + ε • v) h (by rw [hμ]; simp) hsug
    refine ⟨v, t', hv, hnext, hbase, fun y hy => ?_⟩
    have hup := learning_update hS (eigh := eigh) (nullspace := nullspace)
      (fun k => ⟨(hE k).1, .inr (hE k).2.measured⟩) (fun k y hy => (hpos k y hy).1) (q + ε • v)
    have hk₀ : (∑ i, ((kalmanI eigh nullspace).update (volts (q + ε • v)) (some (S.scaled k₀ (q + ε • v)))
            (some (y k₀)) (E k₀)).1.cov i i) ≤ (∑ i, (E k₀).cov i i) - ε ^ 2 * l ^ 2 / (ε ^ 2 * l + r) := by
      obtain ⟨e', he', -, -, -, hred⟩ := ((hE k₀).1.steady (hE k₀).2.1).requested hl hε (hE k₀).2.1 hv hlt
        (S.scaled k₀ (q + ε • v)) (hpos k₀ _ (hy k₀)).1 (hpos k₀ _ (hy k₀)).2 true
      have he'' : (kalmanI eigh nullspace).update (volts (q + ε • v)) (some (S.scaled k₀ (q + ε • v)))
            (some (y k₀)) (E k₀) = (e', .ok ()) := he'
      rw [he'', ← total_cov, ← total_cov]
      exact hred (by rw [(hE k₀).2.2]; simp)
    unfold allVariances
    rw [← Finset.add_sum_erase _ _ (Finset.mem_univ k₀), ← Finset.add_sum_erase (a := k₀) _ (fun k => ∑ i, (E k).cov i i)
      (Finset.mem_univ k₀)]
    have hrest : ∑ k ∈ Finset.univ.erase k₀, ∑ i, ((kalmanI eigh nullspace).update (volts (q + ε • v))
        (some (S.scaled k (q + ε • v))) (some (y k)) (E k)).1.cov i i ≤
        ∑ k ∈ Finset.univ.erase k₀, ∑ i, (E k).cov i i := by
      refine Finset.sum_le_sum fun k _ => ?_
      obtain ⟨e', he', -, -, hle⟩ := hup k (y k) (hy k)
      rw [he']
      exact hle
    linarith
  induction R with
  | zero =>
    intro E q t h hE hvar htol
    by_cases hsure : Sure l E
    · exact hdone 0 E q t h hE hsure htol
    · exfalso
      obtain ⟨v, t', -, -, -, hred⟩ := hask E q t h hE hsure
      obtain ⟨y, hy, -⟩ := hS.evaluators q
      have hy' : ∀ k, y k / (S.scale k * S.scale k) ∈ S.seen k := fun k => ⟨y k, hy k, rfl⟩
      have h1 := hred _ hy'
      have h2 : 0 ≤ allVariances (fun k => ((kalmanI eigh nullspace).update (volts (q + ε • v))
          (some (S.scaled k (q + ε • v))) (some (y k / (S.scale k * S.scale k))) (E k)).1) := by
        refine Finset.sum_nonneg fun k _ => ?_
        obtain ⟨e', he', hl', -⟩ := learning_update hS (eigh := eigh) (nullspace := nullspace)
          (fun k => ⟨(hE k).1, .inr (hE k).2.measured⟩) (fun k y hy => (hpos k y hy).1) (q + ε • v) k _ (hy' k)
        dsimp only
        rw [he', ← total_cov]
        exact total_nonneg hl'.1.psd
      have h3 : 0 < ε ^ 2 * l ^ 2 / (ε ^ 2 * l + r) := by
        have k : Fin m := ⟨0, Nat.pos_of_ne_zero hS.nonempty⟩
        have := hpos k _ (hy' k)
        have : 0 < r := lt_of_lt_of_le this.1 this.2
        positivity
      simp only [Nat.cast_zero, zero_mul] at hvar
      linarith
  | succ R ih =>
    intro E q t h hE hvar htol
    by_cases hsure : Sure l E
    · exact hdone (R + 1) E q t h hE hsure htol
    · obtain ⟨v, t', hv, hnext, hbase, hred⟩ := hask E q t h hE hsure
      have hup := learning_update hS (eigh := eigh) (nullspace := nullspace)
        (fun k => ⟨(hE k).1, .inr (hE k).2.measured⟩) (fun k y hy => (hpos k y hy).1) (q + ε • v)
      have := cycle_or (q := q) hS.toSound hnext hbase (fun k y hy => by
        obtain ⟨e', he', -⟩ := hup k y hy
        exact ⟨e', he'⟩) (3 * (R + N + 1)) (fun y t'' hy _ hAt => by
          refine ih _ _ _ hAt ?_ ?_ ?_
          · intro k
            obtain ⟨e', he', h', -⟩ := hup k (y k) (hy k)
            dsimp only
            rw [he']
            exact h'
          · have := hred y hy
            push_cast at hvar
            linarith
          · intro k tol hk
            refine lt_of_le_of_lt (mul_le_mul_of_nonneg_left ?_ (pow_nonneg hκ _)) (htol k tol hk)
            have hlenv : len v = 1 := by unfold len; rw [hv, Real.sqrt_one]
            have h1 : len (S.miss (q + ε • v)) ≤ len (S.miss q) + |ε| * frob S.slope := by
              rw [miss_add hS]
              have h2 := len_add (S.miss q) ((-1 : ℝ) • act S.slope (ε • v))
              rw [len_smul] at h2
              have h3 := act_le S.slope (ε • v)
              rw [len_smul, hlenv] at h3
              have e1 : S.miss q - act S.slope (ε • v) = S.miss q + (-1 : ℝ) • act S.slope (ε • v) := by
                funext k
                simp
                ring
              rw [e1]
              rw [abs_neg, abs_one, one_mul] at h2
              nlinarith [h2, h3]
            push_cast
            linarith)
      obtain ⟨M, hM, hc⟩ := this
      exact ⟨M, by omega, hc⟩

end Qtune.EndToEnd
