import Verif.EndToEnd.HierarchyRun
import Verif.EndToEnd.Contraction

/-!
# Hierarchies in which a quantity decreases with every step

The tuners may disturb each other.
-/

namespace Qtune.EndToEnd

open Qtune.Tuner Qtune.Gradient Qtune.Autotuner

variable {n m K : Nat} {X : Type}

/-- The suggestion of tuner `i` and the setting of the voltages. -/
theorem suggestion_calls_any {P : Plan n m K} {I : Newton.EstI X (Fin n)} {lstsq : Newton.Lstsq (Fin n)} {i : Nat}
    (hi : i < K) {w : Shared X n} {q q' : Vec n} {t' : OneTuner X n}
    (h : nextVoltages (Newton.solver I lstsq) ((multiHierarchy I lstsq K P.outs).tunedParams w i) (w.get i) =
      (t', .ok (volts q'))) :
    iterates (multiHierarchy I lstsq K P.outs) 2 ⟨w, volts q, i, true, none⟩ =
      .ok ⟨w.put i t', volts q', 0, false, none⟩ := by
  simp only [multiHierarchy] at h
  have h1 : iterates (multiHierarchy I lstsq K P.outs) 1 ⟨w, volts q, i, true, none⟩ =
      .ok ⟨w.put i t', volts q, i, false, some (volts q')⟩ := by
    apply iterates_one
    · simp [iterate, multiHierarchy, isComplete, finish, h, hi.ne, Nat.not_le.2 hi]
    · simp [iterate, multiHierarchy, isComplete, finish, h, hi.ne, Nat.not_le.2 hi]
  rw [iterates_add _ 1 1 _ _ h1]
  apply iterates_one
  · simp [iterate, multiHierarchy, isComplete, finish, hi.ne, volts]
  · simp [iterate, multiHierarchy, isComplete, finish, hi.ne, volts]

/-- Estimators in the states `G` accept exact values; after a value at `q` they are in the states `A q`. -/
def Accepts (P : Plan n m K) (I : Newton.EstI X (Fin n)) (G : Fin m → X → Prop) (A : Vec n → Fin m → X → Prop) : Prop :=
  ∀ k e, G k e → ∀ q, ∀ y ∈ P.seen k,
    ∃ e', I.update (volts q) (some (P.scaled k q)) (some y) e = (e', .ok ()) ∧ G k e' ∧ A q k e'

/-- Estimator `k` has got an exact value at `q`. -/
def Fed (P : Plan n m K) (I : Newton.EstI X (Fin n)) (q : Vec n) (k : Fin m) (e e' : X) : Prop :=
  ∃ y ∈ P.seen k, I.update (volts q) (some (P.scaled k q)) (some y) e = (e', .ok ())

/-- All tuners are idle. -/
structure Plan.Resting (P : Plan n m K) (G : Fin m → X → Prop) (lim : Nat → Val × Int) (w : Shared X n)
    (E : Fin m → X) : Prop where
  ests : w.ests = List.ofFn E
  know : ∀ k, G k (E k)
  idle : ∀ j < K, P.Idle lim j (w.tuners j)

/-- Tuner `i` has been evaluated at `q` and is the first one that is not tuned. -/
structure Plan.Stuck (P : Plan n m K) (G : Fin m → X → Prop) (A : Vec n → Fin m → X → Prop) (lim : Nat → Val × Int)
    (i : Nat) (q : Vec n) (w : Shared X n) (E : Fin m → X) : Prop extends P.Resting G lim w E where
  own : ∀ k, P.owner k = i → A q k (E k)
  tuner : P.At i q (w.tuners i)
  below : ∀ j < i, P.Met j q
  not : ¬ P.Met i q

/-- One evaluation of tuner `j`. -/
theorem rest_evaluation {P : Plan n m K} (hP : P.Valid) {I : Newton.EstI X (Fin n)} {lstsq : Newton.Lstsq (Fin n)}
    {G : Fin m → X → Prop} {A : Vec n → Fin m → X → Prop} (hI : Accepts P I G A) {lim : Nat → Val × Int} {j : Nat} (hj : j < K)
    {w : Shared X n} {E : Fin m → X} (h : P.Resting G lim w E) (q : Vec n) (hb : ∀ l < j, P.Met l q) :
    ∃ w' E', (∀ k, P.owner k = j → Fed P I q k (E k) (E' k)) ∧ (∀ k, P.owner k ≠ j → E' k = E k) ∧
      P.Resting G lim w' E' ∧
      ((P.Met j q ∧ iterates (multiHierarchy I lstsq K P.outs) 1 ⟨w, volts q, j, false, none⟩ =
        .ok ⟨w', volts q, j + 1, false, none⟩) ∨
      (P.Stuck G A lim j q w' E' ∧ iterates (multiHierarchy I lstsq K P.outs) 1 ⟨w, volts q, j, false, none⟩ =
        .ok ⟨w', volts q, j, true, none⟩)) := by
  obtain ⟨E', t', b, hev, hA, hother, hests, hAt, hm1, hm2, hbm⟩ := P.evaluation_any hP (lstsq := lstsq)
    (A := fun k e' => (G k e' ∧ A q k e') ∧ Fed P I q k (E k) e') hj (get_tuner (h.idle j hj).1) h.ests q (by
      intro k _ y hy
      obtain ⟨e', he', h1, h2⟩ := hI k (E k) (h.know k) q y hy
      exact ⟨e', he', ⟨h1, h2⟩, y, hy, he'⟩)
  have hrest : P.Resting G lim (w.put j t') E' := by
    refine ⟨hests, fun k => ?_, fun l hl => ?_⟩
    · by_cases ho : P.owner k = j
      · exact (hA k ho).1.1
      · rw [hother k ho]; exact h.know k
    · by_cases hlj : l = j
      · subst hlj
        simp only [Shared.put, Function.update_self]
        exact ⟨⟨hAt.target, hAt.gates, hAt.index, hAt.lastIndex, hAt.queued⟩, hm1.trans (h.idle l hl).2.1,
          hm2.trans (h.idle l hl).2.2⟩
      · simp only [Shared.put, Function.update_of_ne hlj]
        exact h.idle l hl
  have hcall := evaluation_call (P := P) hj hev
  refine ⟨w.put j t', E', fun k ho => (hA k ho).2, hother, hrest, ?_⟩
  cases b with
  | true => exact .inl ⟨hbm.1 rfl, hcall⟩
  | false =>
    refine .inr ⟨⟨hrest, fun k ho => (hA k ho).1.2, ?_, hb, fun hm => ?_⟩, hcall⟩
    · simp only [Shared.put, Function.update_self]
      exact hAt
    · have := hbm.2 hm
      cases this

/-- The tuners from `j` on are evaluated one after the other. -/
theorem rest_climb {P : Plan n m K} (hP : P.Valid) {I : Newton.EstI X (Fin n)} {lstsq : Newton.Lstsq (Fin n)}
    {G : Fin m → X → Prop} {A : Vec n → Fin m → X → Prop} (hI : Accepts P I G A) {lim : Nat → Val × Int} (q : Vec n) :
    ∀ (d j : Nat) (_ : j + d = K) (w : Shared X n) (E : Fin m → X), P.Resting G lim w E → (∀ l < j, P.Met l q) →
      (∃ w', iterates (multiHierarchy I lstsq K P.outs) d ⟨w, volts q, j, false, none⟩ =
          .ok ⟨w', volts q, K, false, none⟩ ∧ ∀ l < K, P.Met l q) ∨
      ∃ c ≤ d, ∃ i < K, j ≤ i ∧ ∃ w' E', iterates (multiHierarchy I lstsq K P.outs) c ⟨w, volts q, j, false, none⟩ =
          .ok ⟨w', volts q, i, true, none⟩ ∧ P.Stuck G A lim i q w' E' ∧
        (∀ k, j ≤ P.owner k → P.owner k ≤ i → Fed P I q k (E k) (E' k)) ∧
        ∀ k, (P.owner k < j ∨ i < P.owner k) → E' k = E k := by
  intro d
  induction d with
  | zero =>
    intro j hj w E h hb
    obtain rfl : j = K := by omega
    exact .inl ⟨w, rfl, hb⟩
  | succ d ih =>
    intro j hj w E h hb
    obtain ⟨w₁, E₁, hfed, hsame, hrest, ⟨hmet, hcall⟩ | ⟨hstuck, hcall⟩⟩ :=
      rest_evaluation hP (lstsq := lstsq) hI (by omega) h q hb
    · rcases ih (j + 1) (by omega) w₁ E₁ hrest (by
        intro l hl
        rcases Nat.lt_succ_iff_lt_or_eq.1 hl with hl | rfl
        · exact hb l hl
        · exact hmet) with ⟨w', hit, hall⟩ | ⟨c, hc, i, hi, hji, w', E', hit, hst, hf, hs⟩
      · refine .inl ⟨w', ?_, hall⟩
        rw [show d + 1 = 1 + d by omega, iterates_add _ 1 d _ _ hcall]
        exact hit
      · refine .inr ⟨1 + c, by omega, i, hi, by omega, w', E', ?_, hst, fun k h1 h2 => ?_, fun k hk => ?_⟩
        · rw [iterates_add _ 1 c _ _ hcall]
          exact hit
        · by_cases ho : P.owner k = j
          · rw [hs k (.inl (by omega))]
            exact hfed k ho
          · have := hf k (by omega) h2
            rw [hsame k ho] at this
            exact this
        · rw [hs k (by omega), hsame k (by omega)]
    · refine .inr ⟨1, by omega, j, by omega, le_refl _, w₁, E₁, hcall, hstuck, fun k h1 h2 => hfed k (by omega), fun k hk => ?_⟩
      exact hsame k (by omega)

/-- If with every suggestion a quantity decreases by at least `η`, the tuning is complete after finitely many calls. -/
theorem descent {P : Plan n m K} (hP : P.Valid) {I : Newton.EstI X (Fin n)} {lstsq : Newton.Lstsq (Fin n)}
    {G : Fin m → X → Prop} {A : Vec n → Fin m → X → Prop} (hI : Accepts P I G A) {lim : Nat → Val × Int}
    (Ψ : Nat → Vec n → (Fin m → X) → ℝ) {η : ℝ} (hη : 0 < η)
    (hnn : ∀ i q w E, i < K → P.Stuck G A lim i q w E → 0 ≤ Ψ i q E)
    (hstep : ∀ i q w E, i < K → P.Stuck G A lim i q w E → ∀ tuned, ∃ q' t' E₁,
      nextVoltages (Newton.solver I lstsq) tuned (w.get i) = (t', .ok (volts q')) ∧
      P.Resting G lim (w.put i t') E₁ ∧
      ∀ i' w' E', i' < K → P.Stuck G A lim i' q' w' E' → (∀ k, P.owner k ≤ i' → Fed P I q' k (E₁ k) (E' k)) →
        (∀ k, i' < P.owner k → E' k = E₁ k) → Ψ i' q' E' + η ≤ Ψ i q E) :
    ∀ (N : Nat) i q w E, i < K → P.Stuck G A lim i q w E → Ψ i q E ≤ N * η →
      P.CompletesWithin I lstsq ((N + 1) * (K + 2)) ⟨w, volts q, i, true, none⟩ := by
  intro N
  induction N with
  | zero =>
    intro i q w E hi h hN
    obtain ⟨q', t', E₁, hnext, hrest, hdec⟩ := hstep i q w E hi h _
    have hcalls := suggestion_calls_any (P := P) (q := q) hi hnext
    rcases rest_climb hP (lstsq := lstsq) hI q' K 0 (by omega) _ E₁ hrest (by simp) with
      ⟨w', hit, hall⟩ | ⟨c, hc, i', hi', -, w', E', hit, hst, hf, hs⟩
    · refine ⟨2 + K, by omega, ⟨w', volts q', K, false, none⟩, ?_, by simp [isComplete, multiHierarchy], q', rfl, hall⟩
      rw [iterates_add _ 2 K _ _ hcalls]
      exact hit
    · exfalso
      have h1 := hdec i' w' E' hi' hst (fun k hk => hf k (Nat.zero_le _) hk) (fun k hk => hs k (.inr hk))
      have h2 := hnn i' q' w' E' hi' hst
      simp at hN
      linarith
  | succ N ih =>
    intro i q w E hi h hN
    obtain ⟨q', t', E₁, hnext, hrest, hdec⟩ := hstep i q w E hi h _
    have hcalls := suggestion_calls_any (P := P) (q := q) hi hnext
    rcases rest_climb hP (lstsq := lstsq) hI q' K 0 (by omega) _ E₁ hrest (by simp) with
      ⟨w', hit, hall⟩ | ⟨c, hc, i', hi', -, w', E', hit, hst, hf, hs⟩
    · refine ⟨2 + K, by nlinarith, ⟨w', volts q', K, false, none⟩, ?_, by simp [isComplete, multiHierarchy], q', rfl, hall⟩
      rw [iterates_add _ 2 K _ _ hcalls]
      exact hit
    · have h1 := hdec i' w' E' hi' hst (fun k hk => hf k (Nat.zero_le _) hk) (fun k hk => hs k (.inr hk))
      obtain ⟨M, hM, s', hs', hcomp⟩ := ih i' q' w' E' hi' hst (by push_cast at hN; linarith)
      refine ⟨2 + c + M, ?_, s', ?_, hcomp⟩
      · have : (N + 1 + 1) * (K + 2) = (N + 1) * (K + 2) + (K + 2) := by ring
        omega
      · rw [iterates_add _ (2 + c) M ⟨w, volts q, i, true, none⟩ ⟨w', volts q', i', true, none⟩]
        · exact hs'
        · rw [iterates_add _ 2 c _ _ hcalls]
          exact hit

/-- The same from the start. -/
theorem descent_start {P : Plan n m K} (hP : P.Valid) {I : Newton.EstI X (Fin n)} {lstsq : Newton.Lstsq (Fin n)}
    {G : Fin m → X → Prop} {A : Vec n → Fin m → X → Prop} (hI : Accepts P I G A) {lim : Nat → Val × Int}
    (Ψ : Nat → Vec n → (Fin m → X) → ℝ) {η : ℝ} (hη : 0 < η)
    (hnn : ∀ i q w E, i < K → P.Stuck G A lim i q w E → 0 ≤ Ψ i q E)
    (hstep : ∀ i q w E, i < K → P.Stuck G A lim i q w E → ∀ tuned, ∃ q' t' E₁,
      nextVoltages (Newton.solver I lstsq) tuned (w.get i) = (t', .ok (volts q')) ∧
      P.Resting G lim (w.put i t') E₁ ∧
      ∀ i' w' E', i' < K → P.Stuck G A lim i' q' w' E' → (∀ k, P.owner k ≤ i' → Fed P I q' k (E₁ k) (E' k)) →
        (∀ k, i' < P.owner k → E' k = E₁ k) → Ψ i' q' E' + η ≤ Ψ i q E)
    {q : Vec n} {w : Shared X n} {E : Fin m → X} (h : P.Resting G lim w E) (N : Nat)
    (hN : ∀ i w' E', i < K → P.Stuck G A lim i q w' E' → (∀ k, P.owner k ≤ i → Fed P I q k (E k) (E' k)) →
      (∀ k, i < P.owner k → E' k = E k) → Ψ i q E' ≤ N * η) :
    P.CompletesWithin I lstsq (K + (N + 1) * (K + 2)) ⟨w, volts q, 0, false, none⟩ := by
  rcases rest_climb hP (lstsq := lstsq) hI q K 0 (by omega) w E h (by simp) with
    ⟨w', hit, hall⟩ | ⟨c, hc, i, hi, -, w', E', hit, hst, hf, hs⟩
  · exact ⟨K, by omega, _, hit, by simp [isComplete, multiHierarchy], q, rfl, hall⟩
  · obtain ⟨M, hM, s', hs', hcomp⟩ := descent hP hI Ψ hη hnn hstep N i q w' E' hi hst
      (hN i w' E' hi hst (fun k hk => hf k (Nat.zero_le _) hk) (fun k hk => hs k (.inr hk)))
    refine ⟨c + M, by omega, s', ?_, hcomp⟩
    rw [iterates_add _ c M _ _ hit]
    exact hs'

end Qtune.EndToEnd
