import Verif.EndToEnd.PropsHierarchy

/-!
# End to end: several tuners and finite differences that have not been measured yet

The set up is the one of C119 (`HierarchySpec`), but the estimators of the first tuner have not measured
anything yet.
-/

namespace Qtune.EndToEnd

open Qtune.Tuner Qtune.Gradient Qtune.Autotuner

variable {n m K : Nat} {X : Type}

/-- `N` calls of `iterate` succeed, the tuning is not complete after them, and the next call raises `err`. -/
def Plan.RaisesAfter (P : Plan n m K) (I : Newton.EstI X (Fin n)) (lstsq : Newton.Lstsq (Fin n)) (err : PyErr)
    (N : Nat) (s : World' X n) : Prop :=
  ∃ s', iterates (multiHierarchy I lstsq K P.outs) N s = .ok s' ∧
    isComplete (multiHierarchy I lstsq K P.outs) s' = false ∧
    (iterate (multiHierarchy I lstsq K P.outs) (.ok ()) s').2.2 = .error err

/-! ## Helper lemmas -/

/-- The first estimator of a parameter with set point requests a measurement. -/
theorem ask_first (I : Newton.EstI X (Fin n)) (gates : List (Fin n)) (tj : Option (List (Fin n → Val))) :
    ∀ {m : Nat} (E : Fin m → X) (r : Fin m → Row), (∃ k, (r k).desired ≠ none) →
      (∀ k, (r k).desired ≠ none → ∃ e' p, I.require gates tj (E k) = (e', .ok (some p)) ∧ ∃ i, p i ≠ none) →
      ∃ k e' p, (r k).desired ≠ none ∧ I.require gates tj (E k) = (e', .ok (some p)) ∧
        Newton.ask I gates tj ((List.ofFn r).zip (List.ofFn E)) =
          (List.ofFn (Function.update E k e'), .ok (some p)) := by
  intro m
  induction m with
  | zero => rintro E r ⟨k, -⟩; exact k.elim0
  | succ m ih =>
    intro E r hex hreq
    by_cases hd : (r 0).desired = none
    · obtain ⟨k, e', p, hk, hr, ha⟩ := ih (fun k => E k.succ) (fun k => r k.succ) (by
        obtain ⟨k, hk⟩ := hex
        refine Fin.cases (fun hk => absurd hd hk) (fun k hk => ⟨k, hk⟩) k hk) fun k => hreq k.succ
      refine ⟨k.succ, e', p, hk, hr, ?_⟩
      rw [List.ofFn_succ, List.ofFn_succ, List.zip_cons_cons]
      unfold Newton.ask
      rw [if_pos (by simpa using hd), ha]
      simp only
      congr 1
      rw [List.ofFn_succ]
      congr 1
      congr 1
      funext j
      by_cases hj : j = k
      · subst hj; simp
      · rw [Function.update_of_ne hj, Function.update_of_ne (fun h => hj (Fin.succ_injective _ h))]
    · obtain ⟨e', p, hr, hp⟩ := hreq 0 hd
      refine ⟨0, e', p, hd, hr, ?_⟩
      rw [List.ofFn_succ, List.ofFn_succ, List.zip_cons_cons]
      unfold Newton.ask
      rw [if_neg (by simpa using hd), hr]
      simp only
      rw [if_pos hp, List.ofFn_succ]
      congr 1
      rw [Function.update_self, List.map_snd_zip (by simp)]
      congr 1

theorem tuned_zero (I : Newton.EstI X (Fin n)) (lstsq : Newton.Lstsq (Fin n)) (outs : Nat → Volt (Fin n) → List Outcome)
    (w : Shared X n) : (multiHierarchy I lstsq K outs).tunedParams w 0 = [] := by
  simp [multiHierarchy, Naming.tunedParameters]

/-- The suggestion of the first tuner and the setting of the voltages. -/
theorem suggestion_calls_zero {P : Plan n m K} {I : Newton.EstI X (Fin n)} {lstsq : Newton.Lstsq (Fin n)}
    (hK : 0 < K) {w : Shared X n} {q q' : Vec n} {t' : OneTuner X n}
    (h : nextVoltages (Newton.solver I lstsq) [] (w.get 0) = (t', .ok (volts q'))) :
    iterates (multiHierarchy I lstsq K P.outs) 2 ⟨w, volts q, 0, true, none⟩ =
      .ok ⟨w.put 0 t', volts q', 0, false, none⟩ := by
  have ht := tuned_zero (K := K) I lstsq P.outs w
  have h1 : iterates (multiHierarchy I lstsq K P.outs) 1 ⟨w, volts q, 0, true, none⟩ =
      .ok ⟨w.put 0 t', volts q, 0, false, some (volts q')⟩ := by
    apply iterates_one
    · simp only [multiHierarchy] at ht
      simp [iterate, multiHierarchy, isComplete, finish, h, hK.ne, Nat.not_le.2 hK, ht]
    · simp only [multiHierarchy] at ht
      simp [iterate, multiHierarchy, isComplete, finish, h, hK.ne, Nat.not_le.2 hK, ht]
  rw [iterates_add _ 1 1 _ _ h1]
  apply iterates_one
  · simp [iterate, multiHierarchy, isComplete, finish, hK.ne, volts]
  · simp [iterate, multiHierarchy, isComplete, finish, hK.ne, volts]

/-- The first tuner after an evaluation at `q`; its estimators are in the states `A`, those of the other
parameters in the states `O`, the other tuners are idle. -/
structure Plan.First (P : Plan n m K) (lim : Nat → Val × Int) (A : Fin m → X → Prop) (O : Fin m → X) (q : Vec n)
    (w : Shared X n) (E : Fin m → X) : Prop where
  ests : w.ests = List.ofFn E
  own : ∀ k, P.owner k = 0 → A k (E k)
  other : ∀ k, P.owner k ≠ 0 → E k = O k
  tuner : P.At 0 q (w.tuners 0)
  limit : (w.tuners 0).maxStep = (lim 0).1 ∧ (w.tuners 0).maxNumber = (lim 0).2
  idle : ∀ j < K, j ≠ 0 → P.Idle lim j (w.tuners j)

/-- An evaluation of the first tuner at a point at which it is not tuned. -/
theorem lowest_evaluation {P : Plan n m K} (hP : P.Valid) {I : Newton.EstI X (Fin n)} {lstsq : Newton.Lstsq (Fin n)}
    (hK : 0 < K) {lim : Nat → Val × Int} {A : Fin m → X → Prop} {O E : Fin m → X} {w : Shared X n}
    (hests : w.ests = List.ofFn E) (hother : ∀ k, P.owner k ≠ 0 → E k = O k)
    (hidle : ∀ j < K, P.Idle lim j (w.tuners j)) {q : Vec n} (hnot : ¬ P.Met 0 q)
    (hup : ∀ k, P.owner k = 0 → ∀ y ∈ P.seen k,
      ∃ e', I.update (volts q) (some (P.scaled k q)) (some y) (E k) = (e', .ok ()) ∧ A k e') :
    ∃ w' E', iterates (multiHierarchy I lstsq K P.outs) 1 ⟨w, volts q, 0, false, none⟩ =
        .ok ⟨w', volts q, 0, true, none⟩ ∧ P.First lim A O q w' E' := by
  obtain ⟨E', t', b, hev, hA, hoth, hests', hAt, hm1, hm2, hb⟩ := P.evaluation_any hP (lstsq := lstsq)
    hK (get_tuner (hidle 0 hK).1) hests q hup
  have hb' : b = false := by
    cases b with
    | false => rfl
    | true => exact absurd (hb.1 rfl) hnot
  subst hb'
  refine ⟨w.put 0 t', E', evaluation_call hK hev, hests', hA, fun k ho => by rw [hoth k ho, hother k ho], ?_, ?_,
    fun j hj hj0 => ?_⟩
  · simp only [Shared.put, Function.update_self]
    exact hAt
  · simp only [Shared.put, Function.update_self]
    exact ⟨hm1.trans (hidle 0 hK).2.1, hm2.trans (hidle 0 hK).2.2⟩
  · simp only [Shared.put, Function.update_of_ne hj0]
    exact hidle j hj

/-- The first tuner requests a measurement at `c + x`. -/
theorem lowest_request {P : Plan n m K} (hP : P.Valid) {orth : Orth n} (ho : OrthSpec orth)
    {lstsq : Newton.Lstsq (Fin n)} (hK : 0 < K) (hall : ∀ j, j ∈ P.gates 0) {lim : Nat → Val × Int} {B : ℝ}
    (hμ : ∀ M, (lim 0).1 = some M → 2 * B ≤ M) {c : Vec n} {k : Nat} (hk : k < n) {d : Fin k → Vec n}
    (hli : LinearIndependent ℝ d) {O E : Fin m → FD n} {q : Vec n} {w : Shared (FD n) n} (hq : len (q - c) ≤ B)
    (h : P.First lim (fun j => Col B none (P.scaled j) c d) O q w E) :
    ∃ x w' E', LinearIndependent ℝ (Fin.snoc d x : Fin (k + 1) → Vec n) ∧ len x ≤ B ∧
      iterates (multiHierarchy (fdI orth) lstsq K P.outs) 2 ⟨w, volts q, 0, true, none⟩ =
        .ok ⟨w', volts (c + x), 0, false, none⟩ ∧ w'.ests = List.ofFn E' ∧
      (∀ j, P.owner j = 0 → Col B none (P.scaled j) c d (E' j)) ∧ (∀ j, P.owner j ≠ 0 → E' j = O j) ∧
      ∀ j < K, P.Idle lim j (w'.tuners j) := by
  have hsp : Spread (none : Option ℝ) d := fun _ h => by cases h
  have hown : ∀ j, (P.row 0 j).desired ≠ none ↔ P.owner j = 0 := by
    intro j
    constructor
    · intro hd
      by_contra ho
      exact hd (hP.other 0 j ho)
    · intro ho
      have := (hP.own j).1
      rw [ho] at this
      rw [this]
      simp
  obtain ⟨k₀, hk₀⟩ := hP.busy 0 hK
  have hreqs : ∀ j, P.owner j = 0 → ∃ x e', LinearIndependent ℝ (Fin.snoc d x : Fin (k + 1) → Vec n) ∧ len x ≤ B ∧
      Col B none (P.scaled j) c d e' ∧
      (fdI orth).require (P.gates 0) none (E j) = (e', .ok (some fun i => some (some ((c + x) i)))) := by
    intro j hj
    obtain ⟨x, e', hx, -, hlen, hcol, hreq⟩ := (h.own j hj).request ho (hP.gates_nodup 0) hall hk hli hsp
    exact ⟨x, e', hx, hlen, hcol, by simp [fdI, hreq, Except.map]⟩
  obtain ⟨j, e', p, hj, hr, hask⟩ := ask_first (fdI orth) (P.gates 0) none E (P.row 0) ⟨k₀, (hown k₀).2 hk₀⟩ (by
    intro j hj
    obtain ⟨x, e', -, -, -, hreq⟩ := hreqs j ((hown j).1 hj)
    exact ⟨e', _, hreq, ⟨0, by omega⟩, by simp⟩)
  obtain ⟨x, e'', hx, hlen, hcol, hreq⟩ := hreqs j ((hown j).1 hj)
  rw [hreq, Prod.mk.injEq, Except.ok.injEq, Option.some.injEq] at hr
  obtain ⟨rfl, rfl⟩ := hr
  let t := w.get 0
  let t' : OneTuner (FD n) n := { t with solver := { t.solver with ests := List.ofFn (Function.update E j e'') } }
  have hs : Newton.suggest (fdI orth) lstsq [] t.solver =
      (t'.solver, .ok fun i => some (some ((c + x) i))) := by
    have htj : Newton.tunedJacobian (fdI orth) [] t.solver = .ok none :=
      (Newton.tuned_jacobian_rows (fdI orth) [] t.solver).1 (by simp)
    have hask' : Newton.ask (fdI orth) t.solver.gates none (t.solver.target.zip t.solver.ests) =
        (List.ofFn (Function.update E j e''), .ok (some fun i => some (some ((c + x) i)))) := by
      have h1 : t.solver.gates = P.gates 0 := h.tuner.gates
      have h2 : t.solver.target = List.ofFn (P.row 0) := h.tuner.target
      have h3 : t.solver.ests = List.ofFn E := h.ests
      rw [h1, h2, h3]
      exact hask
    unfold Newton.suggest
    rw [htj]
    simp only [hask']
    rfl
  have hnext : nextVoltages (Newton.solver (fdI orth) lstsq) [] (w.get 0) = (t', .ok (volts (c + x))) := by
    have hs' : (Newton.solver (fdI orth) lstsq).suggest [] (w.get 0).solver = _ := hs
    have hlv : (w.get 0).lastVoltage = volts q := h.tuner.lastVoltage
    have hlf : (w.get 0).lastFailed = false := h.tuner.lastFailed
    have hms : (w.get 0).maxStep = (lim 0).1 := h.limit.1
    have hstep : vsub (overlay (volts q) fun i => some (some ((c + x) i))) (volts q) = volts (c + x - q) := by
      funext i
      simp [vsub, overlay, volts]
    have hslice : slice (lim 0).1 (w.get 0).maxNumber (w.get 0).queued (volts (c + x - q)) =
        .ok ((w.get 0).queued, volts (c + x - q)) := by
      unfold slice
      rw [norm_volts]
      cases hM : (lim 0).1 with
      | none => rfl
      | some M =>
        have h1 : len (c + x - q) ≤ len (c - q) + len x := by
          have : c + x - q = (c - q) + x := by abel
          rw [this]
          exact len_add _ _
        rw [len_sub_comm c q] at h1
        simp only [if_neg (not_lt.2 (show len (c + x - q) ≤ M by linarith [hμ M hM]))]
    have hend : vadd (volts q) (volts (c + x - q)) = volts (c + x) := by
      funext i
      simp [vadd, volts]
    unfold nextVoltages
    simp only [hs', hms, hlf, Bool.false_eq_true, if_false, hlv, hstep, hslice, hend]
    rw [← hms, ← hlv, ← hlf]
  refine ⟨x, w.put 0 t', Function.update E j e'', hx, hlen, suggestion_calls_zero hK hnext, rfl, ?_, ?_, ?_⟩
  · intro l hl
    by_cases hlj : l = j
    · subst hlj
      rw [Function.update_self]
      exact hcol
    · rw [Function.update_of_ne hlj]
      exact h.own l hl
  · intro l hl
    have hlj : l ≠ j := by
      rintro rfl
      exact hl ((hown l).1 hj)
    rw [Function.update_of_ne hlj]
    exact h.other l hl
  · intro l hl
    by_cases hl0 : l = 0
    · subst hl0
      simp only [Shared.put, Function.update_self]
      exact ⟨⟨h.tuner.target, h.tuner.gates, h.tuner.index, h.tuner.lastIndex, h.tuner.queued⟩, h.limit⟩
    · simp only [Shared.put, Function.update_of_ne hl0]
      exact h.idle l hl hl0

theorem Plan.scaled_affine (P : Plan n m K) (k : Fin m) : IsAffine (P.scaled k) fun i => P.grad k i / P.scale k := by
  refine ⟨P.offset k / P.scale k, fun v => ?_⟩
  unfold Plan.scaled Plan.response
  rw [add_div, Finset.sum_div, add_comm]
  congr 1
  exact Finset.sum_congr rfl fun i _ => by ring

/-- Collecting the measurements of the first tuner: `r + 1` are missing. -/
theorem lowest_collects {P : Plan n m K} (hP : P.Valid) {orth : Orth n} (ho : OrthSpec orth)
    {lstsq : Newton.Lstsq (Fin n)} (hK : 0 < K) (hall : ∀ j, j ∈ P.gates 0) {lim : Nat → Val × Int} {B : ℝ}
    (hμ : ∀ M, (lim 0).1 = some M → 2 * B ≤ M) {c : Vec n} (hfar : ∀ q, len (q - c) ≤ B → ¬ P.Met 0 q)
    {O : Fin m → FD n} :
    ∀ (r k : Nat) (_ : k + r + 1 = n) (d : Fin k → Vec n) (_ : LinearIndependent ℝ d) (E : Fin m → FD n) (q : Vec n)
      (w : Shared (FD n) n), len (q - c) ≤ B → P.First lim (fun j => Col B none (P.scaled j) c d) O q w E →
      ∃ q' w' E', iterates (multiHierarchy (fdI orth) lstsq K P.outs) (3 * (r + 1)) ⟨w, volts q, 0, true, none⟩ =
          .ok ⟨w', volts q', 0, true, none⟩ ∧
        P.First lim (fun j => Done fun i => P.grad j i / P.scale j) O q' w' E' := by
  intro r
  induction r with
  | zero =>
    intro k hk d hli E q w hq h
    obtain ⟨x, w₁, E₁, hx, hlen, hit, hests, hown, hoth, hidle⟩ :=
      lowest_request hP ho (lstsq := lstsq) hK hall hμ (by omega) hli hq h
    obtain ⟨w', E', hit', hF⟩ := lowest_evaluation hP (I := fdI orth) (lstsq := lstsq) (O := O)
      (A := fun j => Done fun i => P.grad j i / P.scale j) hK hests hoth hidle (q := c + x)
      (hfar _ (by simpa using hlen)) (by
        intro j hj y _
        obtain ⟨e', g, he', hdone, hg⟩ := (hown j hj).last (by omega) x y hx
        subst hk
        obtain ⟨b, hb⟩ := P.scaled_affine j
        have : g = fun i => P.grad j i / P.scale j := eq_of_products hx fun a => by
          rw [hg a, hb, hb]
          simp only [Pi.add_apply, mul_add, Finset.sum_add_distrib]
          ring
        subst this
        exact ⟨e', he', hdone⟩)
    refine ⟨c + x, w', E', ?_, hF⟩
    rw [show 3 * (0 + 1) = 2 + 1 by rfl, iterates_add _ 2 1 _ _ hit]
    exact hit'
  | succ r ih =>
    intro k hk d hli E q w hq h
    obtain ⟨x, w₁, E₁, hx, hlen, hit, hests, hown, hoth, hidle⟩ :=
      lowest_request hP ho (lstsq := lstsq) hK hall hμ (by omega) hli hq h
    obtain ⟨w', E', hit', hF⟩ := lowest_evaluation hP (I := fdI orth) (lstsq := lstsq) (O := O)
      (A := fun j => Col B none (P.scaled j) c (Fin.snoc d x : Fin (k + 1) → Vec n)) hK hests hoth hidle (q := c + x)
      (hfar _ (by simpa using hlen)) (by
        intro j hj y _
        exact (hown j hj).next (by omega) x y)
    obtain ⟨q'', w'', E'', hit'', hF''⟩ := ih (k + 1) (by omega) _ hx E' (c + x) w' (by simpa using hlen) hF
    refine ⟨q'', w'', E'', ?_, hF''⟩
    rw [show 3 * (r + 1 + 1) = 2 + (1 + 3 * (r + 1)) by ring, iterates_add _ 2 _ _ _ hit,
      iterates_add _ 1 _ _ _ hit']
    exact hit''

/-- The tuners and the estimators at the beginning: those of the first tuner are fresh one-sided finite difference
estimators without position or with the position `c`, with steps of at most `B`. -/
structure Plan.Scratch (P : Plan n m K) (c : Vec n) (B : ℝ) (O : Fin m → FD n) (w : Shared (FD n) n) : Prop where
  ests : ∃ E, w.ests = List.ofFn E ∧ (∀ k, P.owner k ≠ 0 → E k = O k) ∧
    ∀ k, P.owner k = 0 → ∃ start eps, (start = none ∨ start = some c) ∧ (∀ i, 0 < eps i ∧ eps i ≤ B) ∧
      E k = FD.new start eps false
  tuners : ∀ i < K, P.Tuner i (w.tuners i)
  /-- a maximal step size of the first tuner is at least twice the step of the finite differences -/
  limit : ∀ M, (w.tuners 0).maxStep = some M → 2 * B ≤ M

/-- The first `3 n + 1` calls: the gradients of the first tuner are found. -/
theorem scratch_phase {P : Plan n m K} (hP : P.Valid) {orth : Orth n} (ho : OrthSpec orth)
    {lstsq : Newton.Lstsq (Fin n)} (hK : 0 < K) (hall : ∀ j, j ∈ P.gates 0) {c : Vec n} {B : ℝ} (hB : 0 ≤ B)
    {O : Fin m → FD n} {w : Shared (FD n) n} (hw : P.Scratch c B O w)
    (hfar : ∀ q, len (q - c) ≤ B → ¬ P.Met 0 q) :
    ∃ q' w' E', iterates (multiHierarchy (fdI orth) lstsq K P.outs) (3 * n + 1) (fresh w (volts c)) =
        .ok ⟨w', volts q', 0, true, none⟩ ∧
      P.First (fun i => ((w.tuners i).maxStep, (w.tuners i).maxNumber))
        (fun j => Done fun i => P.grad j i / P.scale j) O q' w' E' := by
  obtain ⟨k₀, hk₀⟩ := hP.busy 0 hK
  have hn := P.gates_ne hP k₀
  obtain ⟨E, hE, hoth, hown⟩ := hw.ests
  obtain ⟨w₁, E₁, hit, hF⟩ := lowest_evaluation hP (I := fdI orth) (lstsq := lstsq)
    (lim := fun i => ((w.tuners i).maxStep, (w.tuners i).maxNumber)) (O := O)
    (A := fun j => Col B none (P.scaled j) c fun j : Fin 0 => (j.elim0 : Vec n)) hK hE hoth
    (fun j hj => ⟨hw.tuners j hj, rfl, rfl⟩) (q := c) (hfar c (by simpa [len] using hB)) (by
      intro k hk y _
      obtain ⟨start, eps, hs, heps, he⟩ := hown k hk
      rw [he]
      exact Col.start hn c eps (fun i => (heps i).1) (fun i => (heps i).2) (by simp) start hs y)
  obtain ⟨q', w', E', hit', hF'⟩ := lowest_collects hP ho (lstsq := lstsq) hK hall hw.limit hfar (n - 1) 0 (by omega)
    (fun j : Fin 0 => (j.elim0 : Vec n)) linearIndependent_empty_type E₁ c w₁ (by simpa [len] using hB) hF
  refine ⟨q', w', E', ?_, hF'⟩
  have : 3 * n + 1 = 1 + 3 * (n - 1 + 1) := by omega
  have hfresh : (fresh w (volts c) : World' (FD n) n) = ⟨w, volts c, 0, false, none⟩ := rfl
  rw [this, hfresh, iterates_add _ 1 _ _ _ hit]
  exact hit'

/-! ## The theorems -/

/-- **C133** is false.  An autotuner with at least two tuners whose Newton solvers share fresh finite difference
estimators, one for each parameter, as the Kalman estimators in the tutorial.  If the first tuner is not tuned where it
starts (nor within the steps of the finite differences), exactly `3 n + 1` calls of `iterate` succeed, in which
the gradients of the first tuner are measured; the next call raises `LinAlgError`, since the Jacobian has no rows for
the parameters of the other tuners. -/
theorem hierarchy_from_scratch_refuted {P : Plan n m K} (hP : P.Valid) (hK : 2 ≤ K) {orth : Orth n} (ho : OrthSpec orth)
    (lstsq : Newton.Lstsq (Fin n)) (hall : ∀ j, j ∈ P.gates 0) {c : Vec n} {B : ℝ} (hB : 0 ≤ B)
    {O : Fin m → FD n} {w : Shared (FD n) n} (hw : P.Scratch c B O w)
    (hO : ∀ k, P.owner k ≠ 0 → ∃ start eps, O k = FD.new start eps false)
    (hfar : ∀ q, len (q - c) ≤ B → ¬ P.Met 0 q) :
    P.RaisesAfter (fdI orth) lstsq .linAlgError (3 * n + 1) (fresh w (volts c)) := by
  obtain ⟨q, w', E, hit, hF⟩ := scratch_phase hP ho (lstsq := lstsq) (by omega) hall hB hw hfar
  refine ⟨_, hit, by simp [isComplete, multiHierarchy]; omega, ?_⟩
  obtain ⟨k₀, hk₀⟩ := hP.busy 0 (by omega)
  obtain ⟨k₁, hk₁⟩ := hP.busy 1 (by omega)
  let t := w'.get 0
  have h1 : t.solver.gates = P.gates 0 := hF.tuner.gates
  have h2 : t.solver.target = List.ofFn (P.row 0) := hF.tuner.target
  have h3 : t.solver.ests = List.ofFn E := hF.ests
  have hnone : (fdI orth).estimate (E k₁) = none := by
    obtain ⟨start, eps, he⟩ := hO k₁ (by omega)
    rw [hF.other k₁ (by omega), he]
    rfl
  have hask : Newton.ask (fdI orth) t.solver.gates none (t.solver.target.zip t.solver.ests) =
      (List.ofFn E, .ok none) := by
    have := Newton.ask_none (fdI orth) t.solver.gates none (t.solver.target.zip t.solver.ests) (by
      intro re hre hd
      rw [h2, h3] at hre
      obtain ⟨j, hj, hje⟩ := List.mem_iff_getElem.1 hre
      simp at hj hje
      subst hje
      have ho : P.owner ⟨j, hj⟩ = 0 := by
        by_contra ho
        exact hd (hP.other 0 _ ho)
      exact (hF.own _ ho).silent none)
    rw [this, List.map_snd_zip (by rw [h2, h3]; simp), h3]
  have hs : (Newton.suggest (fdI orth) lstsq [] t.solver).2 = .error .linAlgError := by
    have htj : Newton.tunedJacobian (fdI orth) [] t.solver = .ok none :=
      (Newton.tuned_jacobian_rows (fdI orth) [] t.solver).1 (by simp)
    unfold Newton.suggest
    rw [htj]
    simp only [hask]
    unfold Newton.newtonStep
    simp only
    rcases hc : Newton.concat ((List.ofFn E).map (fdI orth).estimate) with err | rows
    · exfalso
      unfold Newton.concat at hc
      split at hc
      · rename_i hall'
        obtain ⟨C, hC⟩ := (hF.own k₀ hk₀).est
        have hmem : some (fun i => some (P.grad k₀ i / P.scale k₀)) ∈ (List.ofFn E).map (fdI orth).estimate := by
          rw [List.mem_map]
          exact ⟨E k₀, (List.mem_ofFn' _ _).2 ⟨k₀, rfl⟩, by simp [fdI, hC]⟩
        simp_all
      · cases hc
    · have hlt := Newton.concat_length_lt hc (by
        rw [← hnone]
        exact List.mem_map_of_mem ((List.mem_ofFn' _ _).2 ⟨k₁, rfl⟩))
      simp only [List.length_map, List.length_ofFn] at hlt
      simp only
      rw [if_pos (by rw [h2]; simp; omega)]
  have hnext : (nextVoltages (Newton.solver (fdI orth) lstsq) [] (w'.get 0)).2 = .error .linAlgError := by
    have hlf : (w'.get 0).lastFailed = false := hF.tuner.lastFailed
    rcases hsug : Newton.suggest (fdI orth) lstsq [] t.solver with ⟨s', r⟩
    rw [hsug] at hs
    simp only at hs
    subst hs
    have hsug' : (Newton.solver (fdI orth) lstsq).suggest [] (w'.get 0).solver = _ := hsug
    unfold nextVoltages
    simp only [hlf, Bool.false_eq_true, if_false, hsug']
  have ht := tuned_zero (K := K) (fdI orth) lstsq P.outs w'
  simp only [multiHierarchy] at ht
  rcases hnv : nextVoltages (Newton.solver (fdI orth) lstsq) [] (w'.get 0) with ⟨t', r⟩
  rw [hnv] at hnext
  simp only at hnext
  subst hnext
  simp [iterate, multiHierarchy, isComplete, finish, hnv, (show 0 < K by omega).ne, (show 0 < K by omega).ne', ht]

/-- **C133**, the case in which it holds: the estimators of all tuners but the first one have found the gradients, those
of the first tuner are fresh.  If the first tuner is not tuned where it starts (nor within the steps of the finite
differences), `iterate` never raises and the tuning is complete after finitely many calls; without maximal step sizes
after at most `3 * n` calls more than in C119.  The voltages then meet the set points of all tuners.
Missing: fresh estimators of the other tuners, see `hierarchy_from_scratch_refuted`. -/
theorem hierarchy_from_scratch_partial {P : Plan n m K} (hP : P.Valid) (hK : 0 < K) {orth : Orth n}
    (ho : OrthSpec orth) {lstsq : Newton.Lstsq (Fin n)} (hl : Newton.LstsqSpec lstsq) (hall : ∀ j, j ∈ P.gates 0)
    {c : Vec n} {B : ℝ} (hB : 0 ≤ B) {O : Fin m → FD n} {w : Shared (FD n) n} (hw : P.Scratch c B O w)
    (hO : ∀ k, P.owner k ≠ 0 →
      (O k).pos ≠ none ∧ ∃ C, (O k).estimate = some (fun i => some (P.grad k i / P.scale k), C))
    (hfar : ∀ q, len (q - c) ≤ B → ¬ P.Met 0 q)
    (hlim : ∀ i < K, (w.tuners i).maxStep = none ∨
      ∃ M, (w.tuners i).maxStep = some M ∧ 0 < M ∧ 1 ≤ (w.tuners i).maxNumber) :
    ((∀ i < K, (w.tuners i).maxStep = none) →
      P.CompletesWithin (fdI orth) lstsq (3 * n + (4 * K + K * (K - 1) / 2)) (fresh w (volts c))) ∧
    ∃ N, P.CompletesWithin (fdI orth) lstsq N (fresh w (volts c)) := by
  obtain ⟨q, w', E, hit, hF⟩ := scratch_phase hP ho (lstsq := lstsq) hK hall hB hw hfar
  let lim : Nat → Val × Int := fun i => ((w.tuners i).maxStep, (w.tuners i).maxNumber)
  have hwork : P.Working (fun k => Done fun i => P.grad k i / P.scale k)
      (fun k => Done fun i => P.grad k i / P.scale k) lim 0 q w' E := by
    refine ⟨⟨hF.ests, fun k => ?_, hF.idle⟩, hF.own, hF.tuner, hF.limit, fun j hj => absurd hj (Nat.not_lt_zero j)⟩
    by_cases hk : P.owner k = 0
    · exact hF.own k hk
    · rw [hF.other k hk]
      exact ⟨(hO k hk).1, (hO k hk).2⟩
  have hpass : ∃ N, ((lim 0).1 = none → N = 3) ∧ P.PassesWithin (fdI orth) lstsq
      (fun k => Done fun i => P.grad k i / P.scale k) lim 0 N ⟨w', volts q, 0, true, none⟩ := by
    rcases hlim 0 hK with hnone | ⟨M, hM, hpos, hν⟩
    · exact ⟨3, fun _ => rfl, unlimited_phase hP hl (fd_knows P orth) hK (lim := lim) hnone hwork⟩
    · obtain ⟨x, hx, -, -⟩ := P.newton hP hl (fd_knows P orth) hK q
      refine ⟨_, fun h => ?_, limited_phase hP hl (fd_knows P orth) hK (lim := lim) hpos hM hν _ (len x) q x w' E
        (le_refl _) hwork hx (le_refl _)⟩
      have h' : (w.tuners 0).maxStep = none := h
      rw [hM] at h'
      cases h'
  obtain ⟨N₁, hN₁, L₁, hL₁, w₂, q₂, hit₂, hp⟩ := hpass
  obtain ⟨N₂, hN₂, L₂, hL₂, s', hit₃, hc⟩ := pass_all hP hl (fd_knows P orth) (lim := lim)
    (fun i hi => hlim i hi) (K - 1) 1 (by omega) q₂ w₂ hp
  have hall' : iterates (multiHierarchy (fdI orth) lstsq K P.outs) (3 * n + 1 + (L₁ + L₂)) (fresh w (volts c)) =
      .ok s' := by
    rw [iterates_add _ _ _ _ _ hit, iterates_add _ L₁ L₂ _ _ hit₂]
    exact hit₃
  refine ⟨fun hnone => ⟨3 * n + 1 + (L₁ + L₂), ?_, s', hall', hc⟩, _, _, le_refl _, s', hall', hc⟩
  have h1 := hN₁ (hnone 0 hK)
  have h2 := hN₂ hnone
  have h3 : ∑ l ∈ Finset.Ico 0 K, (4 + l) = 4 * K + K * (K - 1) / 2 := by
    rw [Finset.sum_add_distrib]
    simp only [Finset.sum_const, Nat.card_Ico, smul_eq_mul]
    rw [Nat.Ico_zero_eq_range, Finset.sum_range_id]
    omega
  rw [Finset.sum_eq_sum_Ico_succ_bot hK] at h3
  simp only [zero_add] at h3
  omega

/-! ## Cases that meet the hypotheses -/

/-- Two tuners that share the finite difference estimators `e` and `e'`. -/
noncomputable def sampleScratch (e e' : FD 2) : Shared (FD 2) 2 where
  tuners := fun i =>
    ⟨⟨samplePlan.target i, [], [0, 1], fun _ => none, [("x", none), ("y", none)]⟩,
      [], fun _ => none, [(if i = 0 then "x" else "y", none)], [], false, [], if i = 0 then some 3 else none, 5, 0⟩
  ests := [e, e']

theorem sampleScratch_scratch (e' : FD 2) (c : Vec 2) :
    samplePlan.Scratch c 1 (fun _ => e') (sampleScratch (FD.new none (fun _ => 1) false) e') where
  ests := by
    refine ⟨![FD.new none (fun _ => 1) false, e'], by simp [sampleScratch], fun k hk => ?_, fun k hk => ?_⟩
    · fin_cases k
      · simp [samplePlan] at hk
      · rfl
    · fin_cases k
      · exact ⟨none, fun _ => 1, .inl rfl, fun _ => ⟨one_pos, le_refl _⟩, rfl⟩
      · simp [samplePlan] at hk
  tuners := by
    intro i hi
    refine ⟨rfl, rfl, by simp [sampleScratch, Series.index, samplePlan], fun l hl => ?_, rfl⟩
    have hi' : i = 0 ∨ i = 1 := by omega
    rcases hi' with rfl | rfl
    · exact ⟨0, rfl, by simpa [sampleScratch, Series.index, samplePlan] using hl⟩
    · exact ⟨1, rfl, by simpa [sampleScratch, Series.index, samplePlan] using hl⟩
  limit := by
    intro M hM
    simp [sampleScratch] at hM
    rw [← hM]
    norm_num

/-- Far away from the set point of the first tuner. -/
theorem samplePlan_far (q : Vec 2) (hq : len (q - fun _ => 80) ≤ 1) : ¬ samplePlan.Met 0 q := by
  intro h
  have := h 0 (1 / 10) rfl (by simp [samplePlan])
  simp [samplePlan, Plan.response, Fin.sum_univ_two] at this
  rw [abs_lt] at this
  unfold len at hq
  rw [Real.sqrt_le_one, Fin.sum_univ_two] at hq
  simp only [Pi.sub_apply] at hq
  nlinarith [sq_nonneg (q 0 - 80 + 1), sq_nonneg (q 1 - 80 - 1), sq_nonneg (q 0 - 80), sq_nonneg (q 1 - 80)]

example (orth : Orth 2) (ho : OrthSpec orth) (lstsq : Newton.Lstsq (Fin 2)) :
    samplePlan.RaisesAfter (fdI orth) lstsq .linAlgError 7
      (fresh (sampleScratch (FD.new none (fun _ => 1) false) (FD.new none (fun _ => 2) false)) (volts fun _ => 80)) :=
  hierarchy_from_scratch_refuted samplePlan_valid (le_refl _) ho lstsq
    (fun j => by fin_cases j <;> simp [samplePlan]) zero_le_one (sampleScratch_scratch _ _)
    (fun _ _ => ⟨none, fun _ => 2, rfl⟩) samplePlan_far

/-- An estimator that knows the gradient of the second parameter. -/
noncomputable def knownY : FD 2 :=
  { FD.new (some fun _ => 0) (fun _ => 1) false with
    estimate := some (fun i => some (samplePlan.grad 1 i / samplePlan.scale 1), none) }

example (orth : Orth 2) (ho : OrthSpec orth) {lstsq : Newton.Lstsq (Fin 2)} (hl : Newton.LstsqSpec lstsq) :
    ∃ N, samplePlan.CompletesWithin (fdI orth) lstsq N
      (fresh (sampleScratch (FD.new none (fun _ => 1) false) knownY) (volts fun _ => 80)) := by
  refine (hierarchy_from_scratch_partial samplePlan_valid (by norm_num) ho hl
    (fun j => by fin_cases j <;> simp [samplePlan]) zero_le_one (sampleScratch_scratch _ _)
    (fun k hk => ?_) samplePlan_far ?_).2
  · fin_cases k
    · simp [samplePlan] at hk
    · exact ⟨by simp [knownY, FD.new], _, rfl⟩
  · intro i hi
    have hi' : i = 0 ∨ i = 1 := by omega
    rcases hi' with rfl | rfl
    · right; exact ⟨3, by simp [sampleScratch], by norm_num, by simp [sampleScratch]⟩
    · left; simp [sampleScratch]

end Qtune.EndToEnd
