import Verif.Gradient.FDSpec
import Mathlib.LinearAlgebra.AffineSpace.Independent
import Mathlib.LinearAlgebra.FiniteDimensional.Lemmas

/-! # Helper lemmas for the finite difference protocol -/

namespace Qtune.Gradient

theorem ofFn_snoc {α : Type} {k : Nat} (d : Fin k → α) (x : α) :
    List.ofFn (Fin.snoc d x : Fin (k + 1) → α) = List.ofFn d ++ [x] := by
  rw [List.ofFn_succ']
  simp [List.concat_eq_append]

theorem ofFn_cons {α : Type} {k : Nat} (d : Fin k → α) (x : α) :
    List.ofFn (Fin.cons x d : Fin (k + 1) → α) = x :: List.ofFn d := by
  rw [List.ofFn_succ]
  simp

theorem reverse_ofFn {α : Type} {k : Nat} (d : Fin k → α) :
    (List.ofFn d).reverse = List.ofFn fun j => d j.rev := by
  apply List.ext_getElem
  · simp
  · intro i h1 h2
    simp only [List.getElem_reverse, List.getElem_ofFn, List.length_ofFn]
    congr 1
    apply Fin.ext
    simp [Fin.rev]
    omega

theorem allReal_map_some (xs : List ℝ) : allReal (xs.map some) = some xs := by
  induction xs with
  | nil => rfl
  | cons x xs ih => simp [allReal, ih]

theorem gradientOf_real {n m : Nat} (P : Fin m → Vec n) (V S : Fin m → ℝ) :
    gradientOf (List.ofFn fun k => (P k, some (V k), some (S k))) =
      match calculateGradient (List.ofFn P) (List.ofFn V) (List.ofFn S) with
      | .error e => .error e
      | .ok (g, C) => .ok (fun i => some (g i), some C) := by
  have hv : allReal (List.ofFn fun k => some (V k)) = some (List.ofFn V) := by
    rw [← allReal_map_some, List.map_ofFn]; rfl
  have hs : allReal (List.ofFn fun k => some (S k)) = some (List.ofFn S) := by
    rw [← allReal_map_some, List.map_ofFn]; rfl
  unfold gradientOf
  simp only [List.map_ofFn, Function.comp_def, hv, hs, Option.getD_some, Option.isSome_some, if_true]
  rfl

/-- Linear independence of the differences does not depend on the base point. -/
theorem affineIndependent_iff {n k : Nat} (p : Fin (k + 1) → Vec n) :
    AffineIndependent ℝ p ↔ LinearIndependent ℝ fun j : Fin k => p j.succ - p 0 := by
  rw [affineIndependent_iff_linearIndependent_vsub ℝ p 0,
    ← linearIndependent_equiv (finSuccAboveEquiv (0 : Fin (k + 1)))]
  rfl

theorem independent_rev {n k : Nat} (p : Fin (k + 1) → Vec n)
    (h : LinearIndependent ℝ fun j : Fin k => p j.succ - p 0) :
    LinearIndependent ℝ fun j : Fin k => p (Fin.rev j.succ) - p (Fin.rev 0) := by
  rw [← affineIndependent_iff] at h
  have := h.comp_embedding (Fin.revPerm (n := k + 1)).toEmbedding
  exact (affineIndependent_iff (fun j => p (Fin.rev j))).1 this

theorem inner_add_right {n : Nat} (u v w : Vec n) : inner u (v + w) = inner u v + inner u w := by
  simp [inner, mul_add, Finset.sum_add_distrib]

theorem inner_smul_right {n : Nat} (u v : Vec n) (a : ℝ) : inner u (a • v) = a * inner u v := by
  simp only [inner, Finset.mul_sum, Pi.smul_apply, smul_eq_mul]
  exact Finset.sum_congr rfl fun i _ => by ring

theorem inner_zero_right {n : Nat} (u : Vec n) : inner u 0 = 0 := by simp [inner]

/-- A vector that is orthogonal to vectors is orthogonal to their span. -/
theorem inner_span {n : Nat} {u : Vec n} {s : Set (Vec n)} (h : ∀ v ∈ s, inner u v = 0)
    {x : Vec n} (hx : x ∈ Submodule.span ℝ s) : inner u x = 0 := by
  induction hx using Submodule.span_induction with
  | mem x hx => exact h x hx
  | zero => exact inner_zero_right u
  | add x y _ _ hx hy => rw [inner_add_right, hx, hy, add_zero]
  | smul a x _ hx => rw [inner_smul_right, hx, mul_zero]

/-- The scaled displacement. -/
def scaled {n : Nat} (u eps : Vec n) : Vec n := fun i => u i * eps i

/-- The scaled displacement is independent of the previous ones. -/
theorem independent_snoc {n k : Nat} {d : Fin k → Vec n} (hd : LinearIndependent ℝ d)
    {u eps : Vec n} (heps : ∀ i, 0 < eps i) (hu : inner u u = 1) (hort : ∀ j, inner u (d j) = 0) :
    LinearIndependent ℝ (Fin.snoc d (scaled u eps) : Fin (k + 1) → Vec n) := by
  rw [linearIndependent_finSnoc]
  refine ⟨hd, fun hmem => ?_⟩
  have h0 : inner u (scaled u eps) = 0 := inner_span (by rintro v ⟨j, rfl⟩; exact hort j) hmem
  have hz : ∀ i ∈ Finset.univ, u i * (u i * eps i) = 0 := by
    refine (Finset.sum_eq_zero_iff_of_nonneg (fun i _ => ?_)).1 h0
    rw [← mul_assoc]
    exact mul_nonneg (mul_self_nonneg _) (heps i).le
  have hu0 : ∀ i, u i = 0 := by
    intro i
    have := hz i (Finset.mem_univ i)
    rcases mul_eq_zero.1 this with h | h
    · exact h
    · rcases mul_eq_zero.1 h with h | h
      · exact h
      · exact absurd h (heps i).ne'
  simp [inner, hu0] at hu

/-- Fewer than `|gates|` vectors leave room for an orthogonal vector on the gates. -/
theorem exists_orthogonal {n k : Nat} (gates : List (Fin n)) (hnd : gates.Nodup)
    (hk : k < gates.length) (d : Fin k → Vec n) :
    ∃ u : Vec n, u ≠ 0 ∧ (∀ i, i ∉ gates → u i = 0) ∧ ∀ j, inner u (d j) = 0 := by
  classical
  let G : Type := {i // i ∈ gates.toFinset}
  let L : (G → ℝ) →ₗ[ℝ] (Fin k → ℝ) :=
    { toFun := fun x j => ∑ i : G, x i * d j i.1
      map_add' := by intro x y; ext j; simp [add_mul, Finset.sum_add_distrib]
      map_smul' := by intro a x; ext j; simp [mul_assoc, Finset.mul_sum] }
  have hcard : Module.finrank ℝ (Fin k → ℝ) < Module.finrank ℝ (G → ℝ) := by
    simp only [Module.finrank_fintype_fun_eq_card, Fintype.card_fin, G, Fintype.card_coe]
    rwa [List.toFinset_card_of_nodup hnd]
  obtain ⟨x, hx, hx0⟩ := Submodule.exists_mem_ne_zero_of_ne_bot (L.ker_ne_bot_of_finrank_lt hcard)
  refine ⟨fun i => if h : i ∈ gates.toFinset then x ⟨i, h⟩ else 0, ?_, ?_, ?_⟩
  · intro h0
    apply hx0
    ext i
    have := congrFun h0 i.1
    simpa using this
  · intro i hi
    simp [hi]
  · intro j
    have hj : ∑ i : G, x i * d j i.1 = 0 := congrFun (LinearMap.mem_ker.1 hx) j
    unfold inner
    rw [← Finset.sum_subset (Finset.subset_univ gates.toFinset), ← Finset.sum_coe_sort]
    · refine Eq.trans (Finset.sum_congr rfl fun i _ => ?_) hj
      show (if h : i.1 ∈ gates.toFinset then x ⟨i.1, h⟩ else 0) * d j i.1 = _
      rw [dif_pos i.2]
    · intro i _ hi
      show (if h : i ∈ gates.toFinset then x ⟨i, h⟩ else 0) * d j i = _
      rw [dif_neg hi, zero_mul]

theorem restrict_add {n : Nat} {gates : List (Fin n)} (c d : Vec n)
    (hd : ∀ i, i ∉ gates → d i = 0) : restrict gates (c + d) - restrict gates c = d := by
  ext i
  by_cases hi : i ∈ gates
  · simp [restrict, hi]
  · simp [restrict, hi, hd i hi]

/-- An orthogonal vector is found as long as there are fewer vectors than gates. -/
theorem orth_finds {n k : Nat} {orth : Orth n} (ho : OrthSpec orth) {gates : List (Fin n)}
    (hnd : gates.Nodup) (hk : k < gates.length) (d : Fin k → Vec n) (vs : List (Vec n))
    (hvs : ∀ v ∈ vs, v = 0 ∨ ∃ j, ∃ a : ℝ, v = a • d j) :
    ∃ u, orth gates vs = some u ∧ inner u u = 1 ∧ (∀ i, i ∉ gates → u i = 0) ∧
      ∀ v ∈ vs, inner u v = 0 := by
  obtain ⟨u₀, hne, hsup, hort⟩ := exists_orthogonal gates hnd hk d
  have hcomp := ho.complete gates vs u₀ hsup (by
    intro v hv
    rcases hvs v hv with rfl | ⟨j, a, rfl⟩
    · exact inner_zero_right _
    · rw [inner_smul_right, hort, mul_zero]) hne
  obtain ⟨u, hu⟩ := Option.ne_none_iff_exists'.1 hcomp
  exact ⟨u, hu, ho.unit _ _ _ hu, ho.support _ _ _ hu, ho.orthogonal _ _ _ hu⟩

/-! ## The one-sided protocol -/

/-- After `k` rounds of the one-sided protocol. -/
structure OneSided {n : Nat} (gates : List (Fin n)) (f : Vec n → ℝ) (c eps : Vec n) (k : Nat)
    (e : FD n) : Prop where
  pos : e.pos = some c
  heps : e.eps = eps
  sym : e.symmetric = false
  est : e.estimate = none
  stored : ∃ (d : Fin k → Vec n) (s₀ : ℝ) (s : Fin k → ℝ), LinearIndependent ℝ d ∧
    (∀ j i, i ∉ gates → d j i = 0) ∧
    e.stored = (c, some (f c), some s₀) ::
      List.ofFn fun j => (c + d j, some (f (c + d j)), some (s j))

theorem displaced {n : Nat} {gates : List (Fin n)} (c u eps : Vec n)
    (hu : ∀ i, i ∉ gates → u i = 0) :
    (fun i => (request gates c eps (.offset u) i).getD (c i)) = c + scaled u eps := by
  ext i
  by_cases hi : i ∈ gates
  · simp [request, hi, scaled]
  · simp [request, hi, scaled, hu i hi]

/-- The request of the one-sided protocol. -/
theorem OneSided.require {n : Nat} {orth : Orth n} (ho : OrthSpec orth) {gates : List (Fin n)}
    (hnd : gates.Nodup) {f : Vec n → ℝ} {c eps : Vec n} {k : Nat} {e : FD n}
    (h : OneSided gates f c eps k e) (hk : k < gates.length) {d : Fin k → Vec n} {s₀ : ℝ} {s : Fin k → ℝ}
    (hsup : ∀ j i, i ∉ gates → d j i = 0)
    (hst : e.stored = (c, some (f c), some s₀) ::
      List.ofFn fun j => (c + d j, some (f (c + d j)), some (s j))) :
    ∃ u, inner u u = 1 ∧ (∀ i, i ∉ gates → u i = 0) ∧ (∀ j, inner u (d j) = 0) ∧
      e.require orth gates =
        ({ e with requested := e.requested ++ [request gates c eps (.offset u)] },
          .ok (some (request gates c eps (.offset u)))) := by
  have hlen : gates.length ≤ n := by
    have := hnd.length_le_card
    simpa using this
  have hmeas : e.stored.map (fun m => restrict gates m.1) =
      restrict gates c :: List.ofFn fun j => restrict gates (c + d j) := by
    rw [hst]
    simp [List.map_ofFn, Function.comp_def]
  have hnext : ∃ u, inner u u = 1 ∧ (∀ i, i ∉ gates → u i = 0) ∧ (∀ j, inner u (d j) = 0) ∧
      nextPoint orth gates false (restrict gates c :: List.ofFn fun j => restrict gates (c + d j)) =
        .ok (.offset u) := by
    rcases Nat.eq_zero_or_pos k with rfl | hpos
    · obtain ⟨u, hu, h1, h2, h3⟩ := orth_finds ho hnd hk d [0] (by simp)
      refine ⟨u, h1, h2, fun j => j.elim0, ?_⟩
      simp [nextPoint, hu]
    · have hbase : baseDiffs (restrict gates c :: List.ofFn fun j => restrict gates (c + d j)) =
          List.ofFn d := by
        simp only [baseDiffs, List.map_ofFn, Function.comp_def]
        congr 1
        funext j
        exact restrict_add c (d j) (hsup j)
      obtain ⟨u, hu, h1, h2, h3⟩ := orth_finds ho hnd hk d (List.ofFn d) (by
        intro v hv
        obtain ⟨j, rfl⟩ := (List.mem_ofFn' _ _).1 hv
        exact Or.inr ⟨j, 1, (one_smul _ _).symm⟩)
      refine ⟨u, h1, h2, fun j => h3 _ ((List.mem_ofFn' _ _).2 ⟨j, rfl⟩), ?_⟩
      unfold nextPoint
      rw [hbase, hu]
      have hl : (restrict gates c :: List.ofFn fun j => restrict gates (c + d j)).getLast? ≠ none := by
        simp
      split
      · rename_i heq; exact absurd heq hl
      · simp only [List.length_cons, List.length_ofFn, Bool.false_eq_true, if_false]
        rw [if_neg (by omega), if_pos (by omega)]
  obtain ⟨u, h1, h2, h3, h4⟩ := hnext
  refine ⟨u, h1, h2, h3, ?_⟩
  unfold FD.require
  simp only [h.pos, h.est, hmeas, h.sym, h4, h.heps]

/-- The state after one more round, before the last one. -/
theorem OneSided.next {n : Nat} {orth : Orth n} (ho : OrthSpec orth) {gates : List (Fin n)}
    (hnd : gates.Nodup) {f : Vec n → ℝ} {c eps : Vec n} (heps : ∀ i, 0 < eps i) {k : Nat} {e : FD n}
    (h : OneSided gates f c eps k e) (hk : k < gates.length) (hkn : k + 1 < n) (v : ℝ) :
    ∃ e', round orth gates f c v e = .ok e' ∧ OneSided gates f c eps (k + 1) e' := by
  obtain ⟨d, s₀, s, hind, hsup, hst⟩ := h.stored
  obtain ⟨u, hu, husup, hort, hreq⟩ := h.require ho hnd hk hsup hst
  unfold round
  rw [hreq]
  simp only [displaced c u eps husup]
  unfold FD.update
  simp only [h.pos, h.est, h.sym, Bool.false_eq_true, false_and, if_false, true_and]
  rw [if_neg (by rw [hst]; simp; omega)]
  refine ⟨_, rfl, ⟨rfl, h.heps, rfl, rfl, Fin.snoc d (scaled u eps), s₀, Fin.snoc s v,
    independent_snoc hind heps hu hort, ?_, ?_⟩⟩
  · intro j i hi
    refine Fin.lastCases ?_ (fun j => ?_) j
    · simp [scaled, husup i hi]
    · simpa using hsup j i hi
  · simp only [hst, List.cons_append]
    congr 1
    rw [← ofFn_snoc]
    congr 1
    funext j
    refine Fin.lastCases ?_ (fun j => ?_) j
    · simp
    · simp

/-- The last round of the one-sided protocol. -/
theorem OneSided.last {n : Nat} {orth : Orth n} (ho : OrthSpec orth) {gates : List (Fin n)}
    (hnd : gates.Nodup) {f : Vec n → ℝ} {g : Vec n} (hf : IsAffine f g) {c eps : Vec n}
    (heps : ∀ i, 0 < eps i) {k : Nat} {e : FD n}
    (h : OneSided gates f c eps k e) (hk : k < gates.length) (hkn : k + 1 = n) (v : ℝ) :
    ∃ e' C, round orth gates f c v e = .ok e' ∧ e'.pos = some c ∧
      e'.estimate = some (fun i => some (g i), some C) := by
  obtain ⟨d, s₀, s, hind, hsup, hst⟩ := h.stored
  obtain ⟨u, hu, husup, hort, hreq⟩ := h.require ho hnd hk hsup hst
  have hind' := independent_snoc hind heps hu hort
  subst hkn
  unfold round
  rw [hreq]
  simp only [displaced c u eps husup]
  unfold FD.update
  simp only [h.pos, h.est, h.sym, Bool.false_eq_true, false_and, if_false, true_and]
  rw [if_pos (by rw [hst]; simp)]
  let P : Fin (k + 1 + 1) → Vec (k + 1) :=
    Fin.cons c fun j => c + (Fin.snoc d (scaled u eps) : Fin (k + 1) → Vec (k + 1)) j
  let S : Fin (k + 1 + 1) → ℝ := Fin.cons s₀ (Fin.snoc s v : Fin (k + 1) → ℝ)
  have hst' : e.stored ++ [(c + scaled u eps, some (f (c + scaled u eps)), some v)] =
      List.ofFn fun j => (P j, some (f (P j)), some (S j)) := by
    rw [List.ofFn_succ, hst, List.cons_append]
    simp only [P, S, Fin.cons_zero, Fin.cons_succ]
    congr 1
    rw [← ofFn_snoc]
    congr 1
    funext j
    refine Fin.lastCases ?_ (fun j => ?_) j
    · simp
    · simp
  have hP : LinearIndependent ℝ fun j : Fin (k + 1) => P j.succ - P 0 := by
    have : (fun j : Fin (k + 1) => P j.succ - P 0) = Fin.snoc d (scaled u eps) := by
      funext j
      simp [P]
    rw [this]
    exact hind'
  obtain ⟨C, hC⟩ := gradient_exact_base (fun j => P j.rev) (fun j => S j.rev) f g hf
    (independent_rev P hP)
  rw [hst', reverse_ofFn, gradientOf_real, hC]
  exact ⟨_, C, rfl, rfl, rfl⟩

/-- `k` rounds. -/
theorem OneSided.many {n : Nat} {orth : Orth n} (ho : OrthSpec orth) {gates : List (Fin n)}
    (hnd : gates.Nodup) {f : Vec n → ℝ} {c eps : Vec n} (heps : ∀ i, 0 < eps i) (vs : List ℝ) :
    ∀ {k : Nat} {e : FD n}, OneSided gates f c eps k e → k + vs.length ≤ gates.length →
      k + vs.length < n →
      ∃ e', rounds orth gates f c vs e = .ok e' ∧ OneSided gates f c eps (k + vs.length) e' := by
  induction vs with
  | nil => intro k e h _ _; exact ⟨e, rfl, h⟩
  | cons v vs ih =>
    intro k e h hl hn
    simp only [List.length_cons] at hl hn
    obtain ⟨e₁, h₁, hs₁⟩ := h.next ho hnd heps (by omega) (by omega) v
    obtain ⟨e₂, h₂, hs₂⟩ := ih hs₁ (by omega) (by omega)
    refine ⟨e₂, ?_, ?_⟩
    · unfold rounds
      rw [h₁]
      exact h₂
    · rw [List.length_cons, Nat.add_comm vs.length 1, ← Nat.add_assoc]
      exact hs₂

theorem rounds_append {n : Nat} (orth : Orth n) (gates : List (Fin n)) (f : Vec n → ℝ)
    (base : Vec n) (vs ws : List ℝ) (e : FD n) :
    rounds orth gates f base (vs ++ ws) e =
      match rounds orth gates f base vs e with
      | .error err => .error err
      | .ok e' => rounds orth gates f base ws e' := by
  induction vs generalizing e with
  | nil => rfl
  | cons v vs ih =>
    simp only [List.cons_append, rounds]
    cases round orth gates f base v e with
    | error err => rfl
    | ok e' => exact ih e'

end Qtune.Gradient
