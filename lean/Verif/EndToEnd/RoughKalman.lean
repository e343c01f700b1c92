import Verif.EndToEnd.HierarchyLearning
import Verif.EndToEnd.PropsLearning

/-! # Several tuners with Kalman estimators: each suggestion is a Newton step or a requested measurement -/

namespace Qtune.EndToEnd

open Matrix Qtune.Tuner Qtune.Gradient Qtune.Autotuner Qtune.Kalman

variable {n m K : Nat}

/-- Kalman estimators are asked one after the other; those of parameters without set point are skipped. -/
theorem ask_kalman_some {eigh : Eigh} {nullspace : Nullspace} {gates : List (Fin n)} {tj : Option (List (Fin n → Val))}
    (hn : n ≠ 0) (res : List (Row × Est n)) :
    Newton.ask (kalmanI eigh nullspace) gates tj res = (res.map Prod.snd, .ok none) ∨
    ∃ re ∈ res, re.1.desired ≠ none ∧ ∃ q : Fin n → Val,
      (kalmanI eigh nullspace).require gates tj re.2 = (re.2, .ok (some fun i => some (q i))) ∧
      Newton.ask (kalmanI eigh nullspace) gates tj res = (res.map Prod.snd, .ok (some fun i => some (q i))) := by
  induction res with
  | nil => left; simp [Newton.ask]
  | cons re res ih =>
    obtain ⟨r, e⟩ := re
    by_cases hd : r.desired = none
    · have hr : r.desired.isNone = true := by simp [hd]
      rcases ih with hall | ⟨re, hre, hre', q, hq, hask⟩
      · left
        unfold Newton.ask
        rw [hr]
        simp [hall]
      · right
        refine ⟨re, by simp [hre], hre', q, hq, ?_⟩
        unfold Newton.ask
        rw [hr]
        simp [hask]
    · rcases ask_kalman (eigh := eigh) (nullspace := nullspace) (gates := gates) (tj := tj) hn [(r, e)]
        (by simpa using hd) with h | ⟨re, hre, q, hq, -⟩
      · have h := h (r, e) (by simp)
        have hr : r.desired.isNone = false := by simpa using Option.isSome_iff_ne_none.2 hd
        rcases ih with hall | ⟨re, hre, hre', q, hq, hask⟩
        · left
          unfold Newton.ask
          rw [hr, h]
          simp [hall]
        · right
          refine ⟨re, by simp [hre], hre', q, hq, ?_⟩
          unfold Newton.ask
          rw [hr, h]
          simp [hask]
      · rw [List.mem_singleton] at hre
        subst hre
        right
        refine ⟨(r, e), by simp, hd, q, hq, ?_⟩
        have hr : r.desired.isNone = false := by simpa using Option.isSome_iff_ne_none.2 hd
        have : ∃ i : Fin n, (some (q i) : Option Val) ≠ none := ⟨⟨0, by omega⟩, by simp⟩
        unfold Newton.ask
        rw [hr, hq]
        dsimp only
        rw [if_neg Bool.false_ne_true, if_pos this]
        rfl

/-- A request is a step of length `ε` in a direction with a variance above the limit. -/
theorem kalman_asks {eigh : Eigh} (heigh : EighSpec eigh) {nullspace : Nullspace} (hnull : NullspaceSpec nullspace)
    {gates : List (Fin n)} (hg : gates.Nodup) {g : Vec n} {l ε χ : ℝ} (hl : 0 < l) {e : Est n} (h : Learns g l ε χ e)
    {q : Vec n} (hq : e.pos = volts q) {tj : Option (List (Fin n → Val))} {p : Fin n → Val}
    (hp : (kalmanI eigh nullspace).require gates tj e = (e, .ok (some fun i => some (p i)))) :
    ∃ v : Vec n, ∑ i, v i ^ 2 = 1 ∧ l < variance e.cov v ∧ p = volts (q + ε • v) := by
  have hnew : e = Est.new e.filter q e.value (fun _ => .fin l) (fun _ => ε) := by
    obtain ⟨p', hp', hpos⟩ := (h.steady hq).new
    have : p' = q := by
      rw [hq] at hpos
      funext i
      have := congrFun hpos i
      simpa [volts] using this.symm
    rw [this] at hp'
    exact hp'
  cases tj with
  | none =>
    have hpk : e.require eigh gates = some p := by
      simp only [kalmanI, Prod.mk.injEq, true_and, Except.ok.injEq, Option.map_eq_some_iff] at hp
      obtain ⟨p', hp', he⟩ := hp
      rw [hp']
      congr 1
      funext i
      have := congrFun he i
      simpa using this
    have h2 := (kalman_request heigh hg e.filter h.psd q e.value (fun _ => ε) l hl).2 p
    rw [← hnew] at h2
    obtain ⟨v, hv, hlt, -, rfl⟩ := h2 hpk
    exact ⟨v, hv.unit, hlt, rfl⟩
  | some rows =>
    simp only [kalmanI, Prod.mk.injEq, true_and, Except.ok.injEq, Option.map_eq_some_iff] at hp
    obtain ⟨p', hp', he⟩ := hp
    have hpp : p' = p := by
      funext i
      have := congrFun he i
      simpa using this
    subst hpp
    rw [hnew] at hp'
    obtain ⟨v, hv, hlt, rfl⟩ := tuned_request_sound hnull (List.nodup_iff_injective_get.1 hg) _ _ _ _ _ _ hp'
    rw [← hnew] at hlt
    exact ⟨v, hv.unit, hlt, rfl⟩

/-- Kalman estimators of which the gradients are known up to `√(lam k χ k)`. -/
def Rough (P : Plan n m K) (l ε : ℝ) (χ lam : Fin m → ℝ) (k : Fin m) (e : Est n) : Prop :=
  (Learns (P.slope k) l ε (χ k) e ∧ (e.value = none ∨ Measured (P.scaled k) e)) ∧
  ∀ v : Vec n, ∑ i, v i ^ 2 = 1 → variance e.cov v ≤ lam k

theorem Plan.affine_scaled {P : Plan n m K} (k : Fin m) : IsAffine (P.scaled k) (P.slope k) :=
  Setup.scaled_affine (S := P.toSetup) ⟨P.offset, fun _ _ => rfl⟩ k

theorem sum_cov_le {e e' : Est n} (h : ∀ v : Vec n, variance e'.cov v ≤ variance e.cov v) :
    ∑ i, e'.cov i i ≤ ∑ i, e.cov i i := by
  refine Finset.sum_le_sum fun i _ => ?_
  have hd : ∀ e : Est n, variance e.cov (Pi.single i 1) = e.cov i i := by
    intro e
    unfold variance
    rw [Finset.sum_eq_single i, Finset.sum_eq_single i]
    · simp
    · intro j _ hj; simp [hj]
    · simp
    · intro j _ hj; simp [hj]
    · simp
  rw [← hd, ← hd]
  exact h _

theorem rough_update {P : Plan n m K} {l ε : ℝ} {χ lam : Fin m → ℝ} {eigh : Eigh} {nullspace : Nullspace}
    (hpos : ∀ k, ∀ y ∈ P.seen k, 0 < y) {k : Fin m} {e : Est n} (h : Rough P l ε χ lam k e) (q : Vec n) {y : ℝ}
    (hy : y ∈ P.seen k) :
    ∃ e', (kalmanI eigh nullspace).update (volts q) (some (P.scaled k q)) (some y) e = (e', .ok ()) ∧
      Rough P l ε χ lam k e' ∧ MeasuredAt (P.scaled k) q e' ∧ ∑ i, e'.cov i i ≤ ∑ i, e.cov i i := by
  obtain ⟨e', he', h1, h2, h3⟩ := learn_update h.1.1 (P.affine_scaled k) h.1.2 q (hpos k y hy)
  exact ⟨e', he', ⟨⟨h1, .inr h2.measured⟩, fun v hv => (h3 v).trans (h.2 v hv)⟩, h2, sum_cov_le h3⟩

theorem rough_accepts {P : Plan n m K} {l ε : ℝ} {χ lam : Fin m → ℝ} {eigh : Eigh} {nullspace : Nullspace}
    (hpos : ∀ k, ∀ y ∈ P.seen k, 0 < y) :
    Accepts P (kalmanI eigh nullspace) (Rough P l ε χ lam) fun q k e => MeasuredAt (P.scaled k) q e := by
  intro k e h q y hy
  obtain ⟨e', he', h1, h2, -⟩ := rough_update hpos h q hy
  exact ⟨e', he', h1, h2⟩

theorem Fed.le {P : Plan n m K} {l ε : ℝ} {χ lam : Fin m → ℝ} {eigh : Eigh} {nullspace : Nullspace}
    (hpos : ∀ k, ∀ y ∈ P.seen k, 0 < y) {k : Fin m} {e e' : Est n} (h : Rough P l ε χ lam k e) {q : Vec n}
    (hf : Fed P (kalmanI eigh nullspace) q k e e') : ∑ i, e'.cov i i ≤ ∑ i, e.cov i i := by
  obtain ⟨y, hy, hup⟩ := hf
  obtain ⟨e'', he'', -, -, h1⟩ := rough_update (eigh := eigh) (nullspace := nullspace) hpos h q hy
  rw [hup] at he''
  cases he''
  exact h1

/-- The uncertainty does not increase. -/
theorem allVariances_le {P : Plan n m K} {l ε : ℝ} {χ lam : Fin m → ℝ} {eigh : Eigh} {nullspace : Nullspace}
    (hpos : ∀ k, ∀ y ∈ P.seen k, 0 < y) {E E' : Fin m → Est n} (h : ∀ k, Rough P l ε χ lam k (E k)) {q : Vec n} {i : Nat}
    (hf : ∀ k, P.owner k ≤ i → Fed P (kalmanI eigh nullspace) q k (E k) (E' k))
    (hs : ∀ k, i < P.owner k → E' k = E k) : allVariances E' ≤ allVariances E := by
  refine Finset.sum_le_sum fun k _ => ?_
  rcases Nat.lt_or_ge i (P.owner k) with hk | hk
  · rw [hs k hk]
  · exact (hf k hk).le hpos (h k)

/-- A requested measurement reduces the uncertainty. -/
theorem allVariances_request {P : Plan n m K} {l ε r : ℝ} (hl : 0 < l) (hε : 1 / 10000000 ≤ |ε|) {χ lam : Fin m → ℝ}
    {eigh : Eigh} {nullspace : Nullspace} (hpos : ∀ k, ∀ y ∈ P.seen k, 0 < y ∧ y ≤ r) {E E' : Fin m → Est n}
    (h : ∀ k, Rough P l ε χ lam k (E k)) {q v : Vec n} {i : Nat} {k₀ : Fin m} (hk₀ : P.owner k₀ ≤ i)
    (hat : MeasuredAt (P.scaled k₀) q (E k₀)) (hv : ∑ i, v i ^ 2 = 1) (hlt : l < variance (E k₀).cov v)
    (hf : ∀ k, P.owner k ≤ i → Fed P (kalmanI eigh nullspace) (q + ε • v) k (E k) (E' k))
    (hs : ∀ k, i < P.owner k → E' k = E k) :
    allVariances E' ≤ allVariances E - ε ^ 2 * l ^ 2 / (ε ^ 2 * l + r) := by
  have h0 : ∑ i, (E' k₀).cov i i ≤ (∑ i, (E k₀).cov i i) - ε ^ 2 * l ^ 2 / (ε ^ 2 * l + r) := by
    obtain ⟨y, hy, hup⟩ := hf k₀ hk₀
    obtain ⟨e', he', -, -, -, hred⟩ := ((h k₀).1.1.steady hat.1).requested hl hε hat.1 hv hlt
      (P.scaled k₀ (q + ε • v)) (hpos k₀ _ hy).1 (hpos k₀ _ hy).2 true
    have he'' : (kalmanI eigh nullspace).update (volts (q + ε • v)) (some (P.scaled k₀ (q + ε • v)))
          (some y) (E k₀) = (e', .ok ()) := he'
    rw [hup] at he''
    cases he''
    rw [← total_cov, ← total_cov]
    exact hred (by rw [hat.2]; simp)
  unfold allVariances
  rw [← Finset.add_sum_erase _ _ (Finset.mem_univ k₀), ← Finset.add_sum_erase (a := k₀) _ (fun k => ∑ i, (E k).cov i i)
    (Finset.mem_univ k₀)]
  have hrest : ∑ k ∈ Finset.univ.erase k₀, ∑ i, (E' k).cov i i ≤ ∑ k ∈ Finset.univ.erase k₀, ∑ i, (E k).cov i i := by
    refine Finset.sum_le_sum fun k _ => ?_
    rcases Nat.lt_or_ge i (P.owner k) with hk | hk
    · rw [hs k hk]
    · exact (hf k hk).le (fun k y hy => (hpos k y hy).1) (h k)
  linarith

theorem allVariances_nonneg {P : Plan n m K} {l ε : ℝ} {χ lam : Fin m → ℝ} {E : Fin m → Est n}
    (h : ∀ k, Rough P l ε χ lam k (E k)) : 0 ≤ allVariances E := by
  refine Finset.sum_nonneg fun k _ => ?_
  rw [← total_cov]
  exact total_nonneg (h k).1.1.psd

/-- The error of the gradients. -/
theorem rough_close {P : Plan n m K} {l ε : ℝ} {χ lam : Fin m → ℝ} (hlam : ∀ k, 0 < lam k) {E : Fin m → Est n}
    (h : ∀ k, Rough P l ε χ lam k (E k)) {ρ : ℝ} (hρ0 : 0 ≤ ρ) (hρ : ∑ k, lam k * χ k ≤ ρ ^ 2) :
    frob ((fun k => (E k).estimate) - P.slope) ≤ ρ := by
  have h1 : frob ((fun k => (E k).estimate) - P.slope) ^ 2 ≤ ρ ^ 2 := by
    rw [frob_sq]
    exact (Finset.sum_le_sum fun k _ => (h k).1.1.close (hlam k) (h k).2).trans hρ
  exact (le_abs_self _).trans (abs_le_of_sq_le_sq h1 hρ0)

/-- The same for the gates of one tuner. -/
theorem rough_condition {P : Plan n m K} {i : Nat} {G : Fin m → Vec n} {σ ρ : ℝ} (hG : frob (G - P.slope) ≤ ρ)
    (hσ : ∀ x : Fin m → ℝ, σ * len x ≤ len fun j => if j ∈ P.gates i then ∑ k, x k * P.slope k j else 0) (x : Fin m → ℝ) :
    (σ - ρ) * len x ≤ len fun j => if j ∈ P.gates i then ∑ k, x k * G k j else 0 := by
  classical
  let cut : (Fin m → Vec n) → Fin m → Vec n := fun G k j => if j ∈ P.gates i then G k j else 0
  have hcomb : ∀ (G : Fin m → Vec n) (x : Fin m → ℝ),
      comb (cut G) x = fun j => if j ∈ P.gates i then ∑ k, x k * G k j else 0 := by
    intro G x
    funext j
    by_cases hj : j ∈ P.gates i <;> simp [comb, cut, hj]
  rw [← hcomb]
  refine perturbed (G := cut P.slope) (fun x => by rw [hcomb]; exact hσ x) (le_trans ?_ hG) x
  unfold frob
  apply Real.sqrt_le_sqrt
  refine Finset.sum_le_sum fun k _ => Finset.sum_le_sum fun j _ => ?_
  by_cases hj : j ∈ P.gates i
  · simp [cut, hj]
  · simp [cut, hj, sq_nonneg]

/-- What tuner `i` suggests. -/
theorem rough_suggestion {P : Plan n m K} (hP : P.Valid) {eigh : Eigh} (heigh : EighSpec eigh) {nullspace : Nullspace}
    (hnull : NullspaceSpec nullspace) {lstsq : Newton.Lstsq (Fin n)} (hls : Newton.LstsqSpec lstsq) {l ε : ℝ} (hl : 0 < l)
    {χ lam : Fin m → ℝ} (hlam : ∀ k, 0 < lam k) {σ ρ : ℝ} (hρ0 : 0 ≤ ρ) (hρσ : ρ < σ) (hρ : ∑ k, lam k * χ k ≤ ρ ^ 2)
    {lim : Nat → Val × Int} (hlim : ∀ i < K, (lim i).1 = none) {i : Nat} (hi : i < K)
    (hσ : ∀ x : Fin m → ℝ, σ * len x ≤ len fun j => if j ∈ P.gates i then ∑ k, x k * P.slope k j else 0)
    {q : Vec n} {w : Shared (Est n) n} {E : Fin m → Est n}
    (h : P.Stuck (Rough P l ε χ lam) (fun q k e => MeasuredAt (P.scaled k) q e) lim i q w E) (tuned : List String) :
    ∃ q', nextVoltages (Newton.solver (kalmanI eigh nullspace) lstsq) tuned (w.get i) = (w.get i, .ok (volts q')) ∧
      (P.toDo q' ≤ P.toDo q - (1 - Real.sqrt K * (ρ / (σ - ρ))) * len (P.block i (P.miss q)) ∨
      ∃ k v, P.owner k = i ∧ ∑ i, v i ^ 2 = 1 ∧ l < variance (E k).cov v ∧ q' = q + ε • v) := by
  obtain ⟨k₀, hk₀⟩ := hP.busy i hi
  have hn : n ≠ 0 := P.gates_ne hP k₀
  have hm : m ≠ 0 := by rintro rfl; exact k₀.elim0
  have hat : P.At i q (w.get i) := ⟨⟨h.tuner.target, h.tuner.gates, h.tuner.index, h.tuner.lastIndex, h.tuner.queued⟩,
    h.tuner.pos, h.tuner.values, h.tuner.lastVoltage, h.tuner.lastFailed⟩
  have hests : (w.get i).solver.ests = List.ofFn E := h.ests
  have hstep : (w.get i).maxStep = none := (h.idle i hi).2.1.trans (hlim i hi)
  have hG := rough_close hlam h.know hρ0 hρ
  obtain ⟨tj, htj⟩ := Newton.tunedJacobian_ok (kalmanI eigh nullspace) tuned (w.get i).solver (by
    intro e he
    simp [kalmanI])
  have hsnd : ((w.get i).solver.target.zip (w.get i).solver.ests).map Prod.snd = (w.get i).solver.ests :=
    List.map_snd_zip (by rw [hat.target, hests]; simp [Plan.target])
  rcases ask_kalman_some (eigh := eigh) (nullspace := nullspace) (gates := P.gates i) (tj := tj) hn
      ((w.get i).solver.target.zip (w.get i).solver.ests) with hask | ⟨re, hre, hd, p, hp, hask⟩
  · rw [hsnd] at hask
    obtain ⟨x, hx0, hxG, hxl, hsug⟩ := P.rough_newton hP hls hat hests hm (G := fun k => (E k).estimate) (fun k => rfl)
      (τ := σ - ρ) (by linarith) (rough_condition hG hσ) htj hask
    refine ⟨q + x, P.next_short hx0 hat.lastVoltage hat.lastFailed hsug (by rw [hstep]; simp), .inl ?_⟩
    exact P.toDo_newton hP hi (by linarith) hG hxG hxl
  · rw [hat.target, hests] at hre
    obtain ⟨j, hj, hje⟩ := List.mem_iff_getElem.1 hre
    simp [Plan.target] at hj hje
    subst hje
    have ho : P.owner ⟨j, hj⟩ = i := by
      by_contra ho
      exact hd (hP.other i _ ho)
    obtain ⟨v, hv, hlt, rfl⟩ := kalman_asks heigh hnull (hP.gates_nodup i) hl (h.know ⟨j, hj⟩).1.1
      (h.own _ ho).1 hp
    refine ⟨q + ε • v, Plan.next_request (q := q) hat.lastVoltage hat.lastFailed ?_ hstep, .inr ⟨_, v, ho, hv, hlt, rfl⟩⟩
    unfold Newton.suggest
    rw [htj]
    simp only [hat.gates, hask, hsnd]
    rw [← hat.gates]
    rfl

theorem put_get_resting {X : Type} {P : Plan n m K} {G : Fin m → X → Prop} {lim : Nat → Val × Int} {w : Shared X n}
    {E : Fin m → X} (h : P.Resting G lim w E) {i : Nat} (hi : i < K) : P.Resting G lim (w.put i (w.get i)) E := by
  refine ⟨h.ests, h.know, fun j hj => ?_⟩
  by_cases hji : j = i
  · subst hji
    simp only [Shared.put, Function.update_self]
    have := h.idle j hi
    exact ⟨get_tuner this.1, this.2⟩
  · simp only [Shared.put, Function.update_of_ne hji]
    exact h.idle j hj

end Qtune.EndToEnd
