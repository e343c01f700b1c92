import Verif.EndToEnd.Model
import Verif.Gradient.FDProps
import Verif.Newton.PropsProtocol
import Mathlib.Analysis.InnerProductSpace.PiL2

/-! # Helper lemmas for the end-to-end theorem -/

namespace Qtune.EndToEnd

open Qtune.Tuner Qtune.Gradient

variable {n m : Nat}

/-! ## One estimator -/

/-- Length of a step. -/
noncomputable def len (x : Vec n) : ℝ := Real.sqrt (∑ i, x i ^ 2)

theorem len_eq (x : Vec n) : len x = ‖(WithLp.toLp 2 x : EuclideanSpace ℝ (Fin n))‖ := by
  rw [EuclideanSpace.norm_eq]
  simp [len]

theorem len_nonneg (x : Vec n) : 0 ≤ len x := Real.sqrt_nonneg _

theorem len_add (x y : Vec n) : len (x + y) ≤ len x + len y := by
  rw [len_eq, len_eq, len_eq, WithLp.toLp_add]
  exact norm_add_le _ _

theorem len_sub_comm (x y : Vec n) : len (x - y) = len (y - x) := by
  rw [len_eq, len_eq, WithLp.toLp_sub, WithLp.toLp_sub]
  exact norm_sub_rev _ _

theorem len_smul (a : ℝ) (x : Vec n) : len (a • x) = |a| * len x := by
  rw [len_eq, len_eq, WithLp.toLp_smul, norm_smul]
  rfl

/-- If the steps have the length `η` on all gates: displacements of this length that are orthogonal to each
other. -/
def Spread (η : Option ℝ) {k : Nat} (d : Fin k → Vec n) : Prop :=
  ∀ h, η = some h → (∀ j, len (d j) = h) ∧ ∀ j j', j ≠ j' → ∑ i, d j i * d j' i = 0

/-- An estimator with steps up to `B` (of the length `η` on all gates, if it is given) that has measured the
response `f` at `c` and at the displacements `d`. -/
structure Col (B : ℝ) (η : Option ℝ) (f : Vec n → ℝ) (c : Vec n) {k : Nat} (d : Fin k → Vec n) (e : FD n) : Prop where
  pos : e.pos = some c
  sym : e.symmetric = false
  heps : ∀ i, 0 < e.eps i
  small : ∀ i, e.eps i ≤ B
  same : ∀ h, η = some h → ∀ i, e.eps i = h
  est : e.estimate = none
  stored : ∃ (s₀ : ℝ) (s : Fin k → ℝ), e.stored = (c, some (f c), some s₀) ::
    List.ofFn fun j => (c + d j, some (f (c + d j)), some (s j))

/-- An estimator with the gradient `g`. -/
structure Done (g : Vec n) (e : FD n) : Prop where
  pos : e.pos ≠ none
  est : ∃ C, e.estimate = some (fun i => some (g i), C)

theorem Col.start {B : ℝ} {η : Option ℝ} {f : Vec n → ℝ} (hn : n ≠ 0) (c eps : Vec n) (heps : ∀ i, 0 < eps i)
    (hsmall : ∀ i, eps i ≤ B) (hsame : ∀ h, η = some h → ∀ i, eps i = h)
    (start : Option (Vec n)) (hstart : start = none ∨ start = some c) (y : ℝ) :
    ∃ e', (FD.new start eps false).update c (some (f c)) (some y) = (e', .ok ()) ∧
      Col B η f c (fun j : Fin 0 => (j.elim0 : Vec n)) e' := by
  rcases hstart with rfl | rfl
  · exact ⟨_, rfl, ⟨rfl, rfl, heps, hsmall, hsame, rfl, y, fun j => j.elim0, rfl⟩⟩
  · refine ⟨{ FD.new (some c) eps false with stored := [(c, some (f c), some y)] }, ?_,
      ⟨rfl, rfl, heps, hsmall, hsame, rfl, y, fun j => j.elim0, rfl⟩⟩
    rw [update_stores (c' := c) _ _ _ rfl rfl (by simp [FD.new]) (by simp [FD.new]; omega)]
    rfl

theorem Col.stored_snoc {f : Vec n → ℝ} {c : Vec n} {k : Nat} {d : Fin k → Vec n} {x : Vec n}
    {s₀ y : ℝ} {s : Fin k → ℝ} :
    ((c, some (f c), some s₀) :: List.ofFn fun j => (c + d j, some (f (c + d j)), some (s j))) ++
        [(c + x, (some (f (c + x)) : Val), (some y : Val))] =
      (c, some (f c), some s₀) :: List.ofFn fun j : Fin (k + 1) =>
        (c + (Fin.snoc d x : Fin (k + 1) → Vec n) j,
          some (f (c + (Fin.snoc d x : Fin (k + 1) → Vec n) j)),
          some ((Fin.snoc s y : Fin (k + 1) → ℝ) j)) := by
  rw [List.cons_append]
  congr 1
  rw [← ofFn_snoc]
  congr 1
  funext j
  refine Fin.lastCases ?_ (fun j => ?_) j
  · simp
  · simp

theorem Col.next {B : ℝ} {η : Option ℝ} {f : Vec n → ℝ} {c : Vec n} {k : Nat} {d : Fin k → Vec n} {e : FD n}
    (h : Col B η f c d e) (hk : k + 1 < n) (x : Vec n) (y : ℝ) :
    ∃ e', e.update (c + x) (some (f (c + x))) (some y) = (e', .ok ()) ∧
      Col B η f c (Fin.snoc d x : Fin (k + 1) → Vec n) e' := by
  obtain ⟨s₀, s, hst⟩ := h.stored
  refine ⟨_, update_stores (c' := c) _ _ _ h.pos h.est (by simp [h.sym])
    (by rw [hst]; simp; omega), ?_⟩
  refine ⟨h.pos, h.sym, h.heps, h.small, h.same, h.est, s₀, Fin.snoc s y, ?_⟩
  simp only [hst]
  exact Col.stored_snoc

/-- An affine function with given values at `n + 1` points. -/
theorem interpolate {f : Vec n → ℝ} {c : Vec n} {d : Fin n → Vec n} (hli : LinearIndependent ℝ d) :
    ∃ (g : Vec n) (f' : Vec n → ℝ), IsAffine f' g ∧ f' c = f c ∧ (∀ j, f' (c + d j) = f (c + d j)) ∧
      ∀ j, ∑ i, g i * d j i = f (c + d j) - f c := by
  let b := basisOfLinearIndependentOfCardEqFinrank' d hli (by simp)
  have hb : ∀ j, b j = d j := fun j => by
    simp only [b]
    rw [coe_basisOfLinearIndependentOfCardEqFinrank']
  let φ : Vec n →ₗ[ℝ] ℝ := b.constr ℝ fun j => f (c + d j) - f c
  have hφ : ∀ j, φ (d j) = f (c + d j) - f c := fun j => by
    rw [← hb, Module.Basis.constr_basis, hb]
  let g : Vec n := fun i => φ fun j => if i = j then 1 else 0
  have hsum : ∀ v, φ v = ∑ i, g i * v i := fun v => by
    rw [LinearMap.pi_apply_eq_sum_univ φ v]
    exact Finset.sum_congr rfl fun i _ => by simp [g, mul_comm]
  refine ⟨g, fun v => f c + φ (v - c), ⟨f c - φ c, fun v => ?_⟩, by simp, fun j => ?_, fun j => ?_⟩
  · dsimp only
    rw [map_sub, ← hsum]; ring
  · simp only [add_sub_cancel_left, hφ]; ring
  · rw [← hsum, hφ]

theorem Col.last {B : ℝ} {η : Option ℝ} {f : Vec n → ℝ} {c : Vec n} {k : Nat}
    {d : Fin k → Vec n} {e : FD n} (h : Col B η f c d e) (hk : k + 1 = n) (x : Vec n) (y : ℝ)
    (hli : LinearIndependent ℝ (Fin.snoc d x : Fin (k + 1) → Vec n)) :
    ∃ e' g, e.update (c + x) (some (f (c + x))) (some y) = (e', .ok ()) ∧ Done g e' ∧
      ∀ j, ∑ i, g i * (Fin.snoc d x : Fin (k + 1) → Vec n) j i =
        f (c + (Fin.snoc d x : Fin (k + 1) → Vec n) j) - f c := by
  obtain ⟨s₀, s, hst⟩ := h.stored
  subst hk
  obtain ⟨g, f', hf, hf0, hfj, hg⟩ := interpolate (f := f) (c := c) hli
  unfold FD.update
  simp only [h.pos, h.est, h.sym, Bool.false_eq_true, false_and, if_false, true_and]
  rw [if_pos (by rw [hst]; simp)]
  let P : Fin (k + 1 + 1) → Vec (k + 1) :=
    Fin.cons c fun j => c + (Fin.snoc d x : Fin (k + 1) → Vec (k + 1)) j
  let S : Fin (k + 1 + 1) → ℝ := Fin.cons s₀ (Fin.snoc s y : Fin (k + 1) → ℝ)
  have hst' : e.stored ++ [(c + x, some (f (c + x)), some y)] =
      List.ofFn fun j => (P j, some (f (P j)), some (S j)) := by
    rw [List.ofFn_succ, hst, Col.stored_snoc]
    simp only [P, S, Fin.cons_zero, Fin.cons_succ]
  have hP : LinearIndependent ℝ fun j : Fin (k + 1) => P j.succ - P 0 := by
    have : (fun j : Fin (k + 1) => P j.succ - P 0) = Fin.snoc d x := by
      funext j
      simp [P]
    rw [this]
    exact hli
  have hval : ∀ j, f' (P j) = f (P j) := by
    intro j
    refine Fin.cases ?_ (fun j => ?_) j
    · exact hf0
    · exact hfj j
  obtain ⟨C, hC⟩ := gradient_exact_base (fun j => P j.rev) (fun j => S j.rev) f' g hf
    (independent_rev P hP)
  simp only [hval] at hC
  rw [hst', reverse_ofFn, gradientOf_real, hC]
  exact ⟨_, g, rfl, ⟨by simp, _, rfl⟩, hg⟩

theorem Spread.snoc {B : ℝ} {η : Option ℝ} {f : Vec n → ℝ} {c : Vec n} {k : Nat} {d : Fin k → Vec n} {e : FD n}
    (hsp : Spread η d) (h : Col B η f c d e) {u : Vec n} (hu : inner u u = 1) (hort : ∀ j, inner u (d j) = 0) :
    Spread η (Fin.snoc d (scaled u e.eps) : Fin (k + 1) → Vec n) := by
  intro a ha
  obtain ⟨hlen, hd⟩ := hsp a ha
  have hx : scaled u e.eps = a • u := by
    funext i
    simp [scaled, h.same a ha i, mul_comm]
  have hort' : ∀ j, ∑ i, scaled u e.eps i * d j i = 0 := by
    intro j
    have : ∑ i, u i * d j i = 0 := hort j
    rw [hx]
    simp only [Pi.smul_apply, smul_eq_mul, mul_assoc, ← Finset.mul_sum, this, mul_zero]
  constructor
  · intro j
    refine Fin.lastCases ?_ (fun j => ?_) j
    · rw [Fin.snoc_last, hx, len_smul]
      have : len u = 1 := by
        unfold len
        have : ∑ i, u i * u i = 1 := hu
        simp only [pow_two, this, Real.sqrt_one]
      rw [this, mul_one]
      rcases isEmpty_or_nonempty (Fin n) with hn | ⟨⟨i⟩⟩
      · have h0 : ∑ i, u i * u i = 1 := hu
        simp at h0
      · rw [← h.same a ha i]
        exact abs_of_pos (h.heps i)
    · rw [Fin.snoc_castSucc]
      exact hlen j
  · intro j
    refine Fin.lastCases ?_ (fun j => ?_) j
    · intro j'
      refine Fin.lastCases (fun hne => absurd rfl hne) (fun j' _ => ?_) j'
      rw [Fin.snoc_last, Fin.snoc_castSucc]
      exact hort' j'
    · intro j'
      refine Fin.lastCases (fun _ => ?_) (fun j' hne => ?_) j'
      · rw [Fin.snoc_last, Fin.snoc_castSucc, ← hort' j]
        exact Finset.sum_congr rfl fun i _ => mul_comm _ _
      · rw [Fin.snoc_castSucc, Fin.snoc_castSucc]
        exact hd j j' fun h => hne (by rw [h])

/-- The request of an estimator that is not done. -/
theorem Col.request {orth : Orth n} (ho : OrthSpec orth) {gates : List (Fin n)}
    (hnd : gates.Nodup) (hall : ∀ i, i ∈ gates) {B : ℝ} {η : Option ℝ} {f : Vec n → ℝ} {c : Vec n} {k : Nat}
    {d : Fin k → Vec n} {e : FD n} (h : Col B η f c d e) (hk : k < n) (hli : LinearIndependent ℝ d)
    (hsp : Spread η d) :
    ∃ x e', LinearIndependent ℝ (Fin.snoc d x : Fin (k + 1) → Vec n) ∧
      Spread η (Fin.snoc d x : Fin (k + 1) → Vec n) ∧ len x ≤ B ∧ Col B η f c d e' ∧
      e.require orth gates = (e', .ok (some fun i => some ((c + x) i))) := by
  obtain ⟨s₀, s, hst⟩ := h.stored
  have hone : OneSided gates f c e.eps k e :=
    ⟨h.pos, rfl, h.sym, h.est, d, s₀, s, hli, fun j i hi => absurd (hall i) hi, hst⟩
  have hlen := length_all hnd hall
  obtain ⟨u, hu, -, hort, hreq⟩ := hone.require ho hnd (by omega)
    (fun j i hi => absurd (hall i) hi) hst
  refine ⟨scaled u e.eps,
    { e with requested := e.requested ++ [Gradient.request gates c e.eps (.offset u)] },
    independent_snoc hli h.heps hu hort, hsp.snoc h hu hort, ?_, ?_, ?_⟩
  · have hB : 0 ≤ B := (h.heps ⟨0, by omega⟩).le.trans (h.small _)
    refine Real.sqrt_le_iff.2 ⟨hB, ?_⟩
    have hu' : ∑ i, u i * u i = 1 := hu
    calc ∑ i, scaled u e.eps i ^ 2 ≤ ∑ i, B ^ 2 * (u i * u i) := by
          refine Finset.sum_le_sum fun i _ => ?_
          have h1 := h.heps i
          have h2 := h.small i
          have h3 : e.eps i ^ 2 ≤ B ^ 2 := pow_le_pow_left₀ h1.le h2 2
          calc scaled u e.eps i ^ 2 = e.eps i ^ 2 * (u i * u i) := by unfold scaled; ring
            _ ≤ B ^ 2 * (u i * u i) := mul_le_mul_of_nonneg_right h3 (mul_self_nonneg _)
      _ = B ^ 2 := by rw [← Finset.mul_sum, hu', mul_one]
  rotate_left
  · rw [hreq]
    congr 3
    funext i
    simp [Gradient.request, hall i, scaled]
  · exact ⟨h.pos, h.sym, h.heps, h.small, h.same, h.est, s₀, s, hst⟩

theorem Done.keeps {g : Vec n} {e : FD n} (h : Done g e) (q : Vec n) (x y : Val) :
    e.update q x y = (e, .ok ()) := by
  obtain ⟨C, hC⟩ := h.est
  obtain ⟨c, hc⟩ := Option.ne_none_iff_exists'.1 h.pos
  unfold FD.update
  simp only [hc, hC]

theorem Done.silent {orth : Orth n} {gates : List (Fin n)} {g : Vec n} {e : FD n} (h : Done g e)
    (tj : Option (List (Fin n → Val))) : (fdI orth).require gates tj e = (e, .ok none) := by
  obtain ⟨C, hC⟩ := h.est
  obtain ⟨c, hc⟩ := Option.ne_none_iff_exists'.1 h.pos
  have : e.require orth gates = (e, .ok none) := by
    unfold FD.require
    simp only [hc, hC]
  simp [fdI, this, Except.map]

/-! ## The solver -/

/-- All estimators are updated. -/
theorem feed_forward {E ι : Type} (I : Newton.EstI E ι) (T : Target) (v : Volt ι) :
    ∀ {m : Nat} (E₀ E₁ : Fin m → E) (name : Fin m → String) (x y : Fin m → Val) (r : Fin m → Row),
      (∀ k, T.row? (name k) = some (r k)) → (∀ k, (r k).desired ≠ none) →
      (∀ k, I.update v (x k) (y k) (E₀ k) = (E₁ k, .ok ())) →
      Newton.feed I T v (List.ofFn E₀) (List.ofFn fun k => (name k, x k)) (List.ofFn y) =
        (List.ofFn E₁, .ok ()) := by
  intro m
  induction m with
  | zero => intros; simp [Newton.feed]
  | succ m ih =>
    intro E₀ E₁ name x y r hr hd hu
    simp only [List.ofFn_succ]
    unfold Newton.feed
    rw [hr 0]
    simp only
    rw [if_neg (by simpa using hd 0), hu 0]
    simp only
    rw [ih (fun k => E₀ k.succ) (fun k => E₁ k.succ) (fun k => name k.succ) (fun k => x k.succ)
      (fun k => y k.succ) (fun k => r k.succ) (fun k => hr _) (fun k => hd _) (fun k => hu _)]

/-! ## The device -/

/-- A device and the target of the tuner: `m` parameters in the order of the target. -/
structure Setup (n m : Nat) where
  /-- rows of the target -/
  row : Fin m → Row
  /-- set points -/
  desired : Fin m → ℝ
  /-- rescaling factors -/
  scale : Fin m → ℝ
  /-- gradients of the responses -/
  grad : Fin m → Vec n
  /-- the responses of the parameters to the voltages -/
  response : Fin m → Vec n → ℝ
  /-- index of the position of the solver -/
  gates : List (Fin n)
  /-- results of the evaluators at given voltages -/
  outs : Volt (Fin n) → List Outcome
  /-- variances that the evaluators report -/
  variances : Set ℝ

/-- The target. -/
def Setup.target (S : Setup n m) : Target := List.ofFn S.row

/-- What is assumed of target and evaluators; the responses may be any functions. -/
structure Setup.Sound (S : Setup n m) : Prop where
  gates_nodup : S.gates.Nodup
  gates_all : ∀ i, i ∈ S.gates
  names : S.target.names.Nodup
  desired : ∀ k, (S.row k).desired = some (S.desired k)
  scale : ∀ k, (S.row k).rescaling = some (S.scale k) ∧ S.scale k ≠ 0
  tolerance : ∀ k tol, (S.row k).tolerance = some tol → 0 < tol
  nonempty : m ≠ 0
  /-- the evaluators return the responses and some variances -/
  evaluators : ∀ v : Vec n, ∃ y : Fin m → ℝ, (∀ k, y k ∈ S.variances) ∧ evaluate S.target (S.outs fun i => some (v i)) =
    .ok (List.ofFn fun k => ((S.row k).name, some (S.response k v)),
      List.ofFn fun k => ((S.row k).name, some (y k)))

/-- The responses are affine with the gradients `grad`. -/
def Setup.Affine (S : Setup n m) : Prop :=
  ∃ offset : Fin m → ℝ, ∀ k v, S.response k v = (∑ i, S.grad k i * v i) + offset k

/-- What is assumed of an affine device and its target: the responses are affine with linearly independent
gradients. -/
structure Setup.Valid (S : Setup n m) : Prop extends Setup.Sound S where
  independent : LinearIndependent ℝ S.grad
  affine : S.Affine

/-- The variances of parameter `k` in units of the target. -/
def Setup.seen (S : Setup n m) (k : Fin m) : Set ℝ :=
  {y | ∃ v ∈ S.variances, y = v / (S.scale k * S.scale k)}

/-- The response in units of the target. -/
noncomputable def Setup.scaled (S : Setup n m) (k : Fin m) (v : Vec n) : ℝ := S.response k v / S.scale k

theorem Setup.scaled_affine {S : Setup n m} (h : S.Affine) (k : Fin m) :
    IsAffine (S.scaled k) (fun i => S.grad k i / S.scale k) := by
  obtain ⟨offset, hoff⟩ := h
  refine ⟨offset k / S.scale k, fun v => ?_⟩
  unfold Setup.scaled
  rw [hoff, add_div, Finset.sum_div, add_comm]
  congr 1
  exact Finset.sum_congr rfl fun i _ => by ring

theorem Setup.names_eq (S : Setup n m) : S.target.names = List.ofFn fun k => (S.row k).name := by
  simp [Setup.target, Target.names, List.map_ofFn, Function.comp_def]

theorem Setup.row? {S : Setup n m} (h : S.Sound) (k : Fin m) :
    S.target.row? (S.row k).name = some (S.row k) := by
  apply Newton.row?_getElem h.names (k := k.1)
  simp [Setup.target]

theorem Setup.val_ofFn {S : Setup n m} (h : S.Sound) (x : Fin m → Val) (k : Fin m) :
    Series.val (List.ofFn fun k => ((S.row k).name, x k)) (S.row k).name = x k := by
  have hinj : Function.Injective fun k => (S.row k).name := by
    have := h.names
    rw [S.names_eq, List.nodup_ofFn] at this
    exact this
  have : ∀ {m' : Nat} (name : Fin m' → String) (x : Fin m' → Val), Function.Injective name →
      ∀ k, (List.ofFn fun k => (name k, x k)).lookup (name k) = some (x k) := by
    intro m' name x hinj
    induction m' with
    | zero => intro k; exact k.elim0
    | succ m' ih =>
      intro k
      rw [List.ofFn_succ]
      refine Fin.cases ?_ (fun k => ?_) k
      · simp [List.lookup_cons]
      · have hne : ¬ name k.succ = name 0 := fun h => by
          have := hinj h
          exact absurd this (Fin.succ_ne_zero k)
        rw [List.lookup_cons, beq_eq_false_iff_ne.2 hne]
        exact ih (fun k => name k.succ) (fun k => x k.succ)
          (fun a b hab => Fin.succ_injective _ (hinj hab)) k
  unfold Series.val
  rw [this _ x hinj k]
  rfl

theorem Setup.select {S : Setup n m} (h : S.Sound) (x : Fin m → Val) :
    Series.select (List.ofFn fun k => ((S.row k).name, x k)) S.target.names =
      .ok (List.ofFn fun k => ((S.row k).name, x k)) := by
  have hmap : (S.target.names.map fun l =>
      (l, Series.val (List.ofFn fun k => ((S.row k).name, x k)) l)) =
      List.ofFn fun k => ((S.row k).name, x k) := by
    rw [S.names_eq, List.map_ofFn]
    congr 1
    funext k
    simp only [Function.comp_def, Setup.val_ofFn h]
  unfold Series.select
  rw [if_neg, hmap]
  rintro ⟨hne, hall⟩
  rw [List.all_eq_true] at hall
  have h0 : 0 < m := Nat.pos_of_ne_zero h.nonempty
  have := hall (S.row ⟨0, h0⟩).name (by
    rw [S.names_eq]
    exact (List.mem_ofFn' _ _).2 ⟨_, rfl⟩)
  have hv := Setup.val_ofFn h (fun k => some (0 : ℝ)) ⟨0, h0⟩
  have hlook : ∀ (x : Fin m → Val) (l : String),
      ((List.ofFn fun k => ((S.row k).name, x k)).lookup l).isNone →
      l ∉ (List.ofFn fun k => ((S.row k).name, x k)).map Prod.fst := by
    intro x l hn
    have key : ∀ (s : Series), (s.lookup l).isNone → l ∉ s.map Prod.fst := by
      intro s
      induction s with
      | nil => simp
      | cons a s ih =>
        obtain ⟨l', x'⟩ := a
        intro hn
        rw [List.lookup_cons] at hn
        by_cases hl : l = l'
        · subst hl; simp at hn
        · rw [beq_eq_false_iff_ne.2 hl] at hn
          simp only [List.map_cons, List.mem_cons, not_or]
          exact ⟨hl, ih hn⟩
    exact key _ hn
  apply hlook x _ this
  rw [List.map_ofFn]
  exact (List.mem_ofFn' _ _).2 ⟨⟨0, h0⟩, rfl⟩

/-- What the tuner passes on to the solver. -/
theorem Setup.rescaled {S : Setup n m} (h : S.Sound) (v : Vec n) (y : Fin m → ℝ) :
    rescaleValues S.target (List.ofFn fun k => ((S.row k).name, some (S.response k v))) =
      (List.ofFn fun k => ((S.row k).name, some (S.scaled k v))) ∧
    rescaleVariances S.target (List.ofFn fun k => ((S.row k).name, some (y k))) =
      List.ofFn fun k => ((S.row k).name, some (y k / (S.scale k * S.scale k))) := by
  have hfac : ∀ k, factor S.target (S.row k).name = some (S.scale k) := by
    intro k
    unfold factor
    rw [Setup.row? h k]
    exact (h.scale k).1
  constructor
  · unfold rescaleValues
    rw [List.map_ofFn]
    congr 1
    funext k
    simp only [Function.comp_def, hfac, Val.div_some (h.scale k).2]
    rfl
  · unfold rescaleVariances
    rw [List.map_ofFn]
    congr 1
    funext k
    simp only [Function.comp_def, hfac, Val.mul_some,
      Val.div_some (mul_ne_zero (h.scale k).2 (h.scale k).2)]

end Qtune.EndToEnd
