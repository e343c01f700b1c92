import Verif.Gradient.FDLemmas

/-! # Helper lemmas for the symmetric finite difference protocol -/

namespace Qtune.Gradient

variable {n : Nat}

/-- The two measurements with displacement `d`. -/
def pair (f : Vec n → ℝ) (c : Vec n) (D : Vec n × ℝ × ℝ) : List (Vec n × ℝ × ℝ) :=
  [(c + D.1, f (c + D.1), D.2.1), (c - D.1, f (c - D.1), D.2.2)]

/-- Measurements without NaN. -/
def asVals (m : Vec n × ℝ × ℝ) : Vec n × Val × Val := (m.1, some m.2.1, some m.2.2)

theorem pairDiffs_flatMap {α β : Type} [Sub α] (a b : β → α) (ds : List β) :
    pairDiffs (ds.flatMap fun d => [a d, b d]) = ds.map fun d => b d - a d := by
  induction ds with
  | nil => rfl
  | cons d ds ih => simp [pairDiffs, ih]

theorem length_flatMap_pair {α β : Type} (a b : β → α) (ds : List β) :
    (ds.flatMap fun d => [a d, b d]).length = 2 * ds.length := by
  induction ds with
  | nil => rfl
  | cons d ds ih => simp [ih]; omega

theorem calculateGradient_pairs (hn : n ≠ 0) (P : List (Vec n)) (V S : List ℝ)
    (hP : P.length = 2 * n) (hV : V.length = 2 * n) (hS : S.length = 2 * n) :
    calculateGradient P V S = fromDiffs (pairDiffs P) (pairDiffs V) (pairSums S) := by
  unfold calculateGradient
  rw [if_neg (by omega), if_neg (by rintro rfl; simp at hP; omega)]
  by_cases h1 : n = 1
  · subst h1
    rw [if_pos (by omega)]
    match P, V, S, hP, hV, hS with
    | [a, b], [v, w], [s, t], _, _, _ => rfl
  · rw [if_neg (by omega), if_pos hV]

theorem gradientOf_asVals (ms : List (Vec n × ℝ × ℝ)) :
    gradientOf (ms.map asVals) =
      match calculateGradient (ms.map fun m => m.1) (ms.map fun m => m.2.1) (ms.map fun m => m.2.2) with
      | .error e => .error e
      | .ok (g, C) => .ok (fun i => some (g i), some C) := by
  have hv : allReal (ms.map fun m => some m.2.1) = some (ms.map fun m => m.2.1) := by
    rw [← allReal_map_some, List.map_map]; rfl
  have hs : allReal (ms.map fun m => some m.2.2) = some (ms.map fun m => m.2.2) := by
    rw [← allReal_map_some, List.map_map]; rfl
  unfold gradientOf
  simp only [List.map_map, Function.comp_def, asVals, hv, hs, Option.getD_some, Option.isSome_some,
    if_true]
  rfl

/-- State of the symmetric protocol with `k` complete pairs. -/
structure Sym (gates : List (Fin n)) (f : Vec n → ℝ) (c eps : Vec n) {k : Nat}
    (D : Fin k → Vec n × ℝ × ℝ) (e : FD n) : Prop where
  pos : e.pos = some c
  heps : e.eps = eps
  sym : e.symmetric = true
  est : e.estimate = none
  support : ∀ j i, i ∉ gates → (D j).1 i = 0
  stored : e.stored = ((List.ofFn D).flatMap (pair f c)).map asVals

/-- State of the symmetric protocol with `k` complete pairs and one more measurement. -/
structure SymHalf (gates : List (Fin n)) (f : Vec n → ℝ) (c eps : Vec n) {k : Nat}
    (D : Fin k → Vec n × ℝ × ℝ) (x : Vec n) (s : ℝ) (e : FD n) : Prop where
  pos : e.pos = some c
  heps : e.eps = eps
  sym : e.symmetric = true
  est : e.estimate = none
  support : ∀ j i, i ∉ gates → (D j).1 i = 0
  supportx : ∀ i, i ∉ gates → x i = 0
  stored : e.stored = ((List.ofFn D).flatMap (pair f c) ++ [(c + x, f (c + x), s)]).map asVals

theorem measured_pairs (gates : List (Fin n)) (f : Vec n → ℝ) (c : Vec n) {k : Nat}
    (D : Fin k → Vec n × ℝ × ℝ) :
    (((List.ofFn D).flatMap (pair f c)).map asVals).map (fun m => restrict gates m.1) =
      (List.ofFn D).flatMap fun d => [restrict gates (c + d.1), restrict gates (c - d.1)] := by
  rw [List.map_map, List.map_flatMap]
  rfl

/-- The request for the first measurement of a pair. -/
theorem Sym.require {orth : Orth n} (ho : OrthSpec orth) {gates : List (Fin n)}
    (hnd : gates.Nodup) {f : Vec n → ℝ} {c eps : Vec n} {k : Nat} {D : Fin k → Vec n × ℝ × ℝ}
    {e : FD n} (h : Sym gates f c eps D e) (hk : k < gates.length) :
    ∃ u, inner u u = 1 ∧ (∀ i, i ∉ gates → u i = 0) ∧ (∀ j, inner u (D j).1 = 0) ∧
      e.require orth gates =
        ({ e with requested := e.requested ++ [request gates c eps (.offset u)] },
          .ok (some (request gates c eps (.offset u)))) := by
  have hnext : ∃ u, inner u u = 1 ∧ (∀ i, i ∉ gates → u i = 0) ∧ (∀ j, inner u (D j).1 = 0) ∧
      nextPoint orth gates true (e.stored.map fun m => restrict gates m.1) = .ok (.offset u) := by
    rw [h.stored, measured_pairs]
    have hlen := length_flatMap_pair (fun d : Vec n × ℝ × ℝ => restrict gates (c + d.1))
      (fun d => restrict gates (c - d.1)) (List.ofFn D)
    rw [List.length_ofFn] at hlen
    rcases Nat.eq_zero_or_pos k with rfl | hpos
    · cases gates with
      | nil => simp at hk
      | cons g gs =>
        refine ⟨Pi.single g 1, ?_, ?_, fun j => j.elim0, ?_⟩
        · simp [inner, Pi.single_apply]
        · intro i hi
          have : i ≠ g := by rintro rfl; exact hi List.mem_cons_self
          simp [this]
        · simp [nextPoint]
    · have hsub : ∀ j, restrict gates (c - (D j).1) - restrict gates (c + (D j).1) =
          (-2 : ℝ) • (D j).1 := by
        intro j
        ext i
        by_cases hi : i ∈ gates
        · simp [restrict, hi]; ring
        · simp [restrict, hi, h.support j i hi]
      have hdiff : pairDiffs ((List.ofFn D).flatMap fun d =>
          [restrict gates (c + d.1), restrict gates (c - d.1)]) =
          List.ofFn fun j => (-2 : ℝ) • (D j).1 := by
        rw [pairDiffs_flatMap, List.map_ofFn]
        congr 1
        funext j
        exact hsub j
      obtain ⟨u, hu, h1, h2, h3⟩ := orth_finds ho hnd hk (fun j => (D j).1)
        (List.ofFn fun j => (-2 : ℝ) • (D j).1) (by
          intro v hv
          obtain ⟨j, rfl⟩ := (List.mem_ofFn' _ _).1 hv
          exact Or.inr ⟨j, -2, rfl⟩)
      refine ⟨u, h1, h2, fun j => ?_, ?_⟩
      · have := h3 _ ((List.mem_ofFn' _ _).2 ⟨j, rfl⟩)
        rw [inner_smul_right] at this
        linarith
      · unfold nextPoint
        split
        · rename_i heq
          rw [List.getLast?_eq_none_iff] at heq
          rw [heq] at hlen
          simp at hlen
          omega
        · rw [if_pos rfl, hlen, if_neg (by omega), hdiff, hu]
  obtain ⟨u, hu, husup, hort, hn⟩ := hnext
  refine ⟨u, hu, husup, hort, ?_⟩
  unfold FD.require
  simp only [h.pos, h.est, h.sym, hn, h.heps]

theorem Sym.length {gates : List (Fin n)} {f : Vec n → ℝ} {c eps : Vec n} {k : Nat} {D : Fin k → Vec n × ℝ × ℝ}
    {e : FD n} (h : Sym gates f c eps D e) : e.stored.length = 2 * k := by
  rw [h.stored, List.length_map]
  have := length_flatMap_pair (fun D : Vec n × ℝ × ℝ => (c + D.1, f (c + D.1), D.2.1))
    (fun D => (c - D.1, f (c - D.1), D.2.2)) (List.ofFn D)
  rw [List.length_ofFn] at this
  exact this

/-- The first measurement of a pair. -/
theorem Sym.update {gates : List (Fin n)} {f : Vec n → ℝ} {c eps : Vec n} {k : Nat}
    {D : Fin k → Vec n × ℝ × ℝ} {e : FD n} (h : Sym gates f c eps D e) {x : Vec n}
    (hx : ∀ i, i ∉ gates → x i = 0) (v : ℝ) :
    ∃ e', e.update (c + x) (some (f (c + x))) (some v) = (e', .ok ()) ∧ SymHalf gates f c eps D x v e' := by
  refine ⟨{ e with stored := e.stored ++ [(c + x, some (f (c + x)), some v)] }, ?_, ?_⟩
  · unfold FD.update
    simp only [h.pos, h.est, h.sym]
    rw [if_neg (by simp [h.length]; omega), if_neg (by simp)]
  · refine ⟨h.pos, h.heps, h.sym, h.est, h.support, hx, ?_⟩
    simp only [h.stored, List.map_append]
    rfl

theorem Sym.requested {gates : List (Fin n)} {f : Vec n → ℝ} {c eps : Vec n} {k : Nat}
    {D : Fin k → Vec n × ℝ × ℝ} {e : FD n} (h : Sym gates f c eps D e) (r : List (Partial n)) :
    Sym gates f c eps D { e with requested := r } :=
  ⟨h.pos, h.heps, h.sym, h.est, h.support, h.stored⟩

/-- First measurement of a pair. -/
theorem Sym.first {orth : Orth n} (ho : OrthSpec orth) {gates : List (Fin n)}
    (hnd : gates.Nodup) {f : Vec n → ℝ} {c eps : Vec n} {k : Nat} {D : Fin k → Vec n × ℝ × ℝ}
    {e : FD n} (h : Sym gates f c eps D e) (hk : k < gates.length) (v : ℝ) :
    ∃ u e', inner u u = 1 ∧ (∀ j, inner u (D j).1 = 0) ∧ round orth gates f c v e = .ok e' ∧
      SymHalf gates f c eps D (scaled u eps) v e' := by
  obtain ⟨u, hu, husup, hort, hreq⟩ := h.require ho hnd hk
  obtain ⟨e', he', h'⟩ := (h.requested (e.requested ++ [request gates c eps (.offset u)])).update
    (x := scaled u eps) (fun i hi => by simp [scaled, husup i hi]) v
  refine ⟨u, e', hu, hort, ?_, h'⟩
  unfold round
  rw [hreq]
  simp only [displaced c u eps husup, he']

theorem SymHalf.length {gates : List (Fin n)} {f : Vec n → ℝ} {c eps : Vec n} {k : Nat}
    {D : Fin k → Vec n × ℝ × ℝ} {x : Vec n} {s : ℝ} {e : FD n} (h : SymHalf gates f c eps D x s e) :
    e.stored.length = 2 * k + 1 := by
  rw [h.stored, List.length_map, List.length_append]
  have := length_flatMap_pair (fun D : Vec n × ℝ × ℝ => (c + D.1, f (c + D.1), D.2.1))
    (fun D => (c - D.1, f (c - D.1), D.2.2)) (List.ofFn D)
  rw [List.length_ofFn] at this
  have h' : ((List.ofFn D).flatMap (pair f c)).length = 2 * k := this
  rw [h']
  rfl

/-- The request for the second measurement of a pair. -/
theorem SymHalf.require {orth : Orth n} {gates : List (Fin n)}
    {f : Vec n → ℝ} {c eps : Vec n} {k : Nat} {D : Fin k → Vec n × ℝ × ℝ} {x : Vec n} {s : ℝ}
    {e : FD n} (h : SymHalf gates f c eps D x s e) :
    e.require orth gates =
      ({ e with requested := e.requested ++ [request gates c eps (.mirror (restrict gates (c + x)))] },
        .ok (some (request gates c eps (.mirror (restrict gates (c + x)))))) := by
  have hlen := h.length
  have hnext : nextPoint orth gates true (e.stored.map fun m => restrict gates m.1) =
      .ok (.mirror (restrict gates (c + x))) := by
    have hlen' : (e.stored.map fun m => restrict gates m.1).length = 2 * k + 1 := by
      rw [List.length_map, hlen]
    have hlast : (e.stored.map fun m => restrict gates m.1).getLast? =
        some (restrict gates (c + x)) := by
      rw [h.stored, List.map_append, List.map_append]
      simp [asVals]
    unfold nextPoint
    rw [hlast]
    simp only [if_true]
    rw [hlen', if_pos (by omega)]
  unfold FD.require
  simp only [h.pos, h.est, h.sym, hnext, h.heps]

/-- The second measurement of a pair. -/
theorem SymHalf.update {gates : List (Fin n)}
    {f : Vec n → ℝ} {c eps : Vec n} {k : Nat} {D : Fin k → Vec n × ℝ × ℝ} {x : Vec n} {s : ℝ}
    {e : FD n} (h : SymHalf gates f c eps D x s e) (w : ℝ) :
    ∃ e', Sym gates f c eps (Fin.snoc D (x, s, w) : Fin (k + 1) → Vec n × ℝ × ℝ) e' ∧
      (k + 1 ≠ n → e.update (c - x) (some (f (c - x))) (some w) = (e', .ok ())) ∧
      (k + 1 = n → e.update (c - x) (some (f (c - x))) (some w) =
        match gradientOf e'.stored with
        | .error err => (e', .error err)
        | .ok r => ({ e' with estimate := some r }, .ok ())) := by
  have hlen := h.length
  refine ⟨{ e with stored := e.stored ++ [(c - x, some (f (c - x)), some w)] }, ?_, ?_, ?_⟩
  · refine ⟨h.pos, h.heps, h.sym, h.est, ?_, ?_⟩
    · intro j i hi
      refine Fin.lastCases ?_ (fun j => ?_) j
      · simpa using h.supportx i hi
      · simpa using h.support j i hi
    · simp only [h.stored, ofFn_snoc, List.flatMap_append, List.map_append, List.append_assoc]
      rfl
  · intro hne
    unfold FD.update
    simp only [h.pos, h.est, h.sym]
    rw [if_neg (by simp [hlen]; omega), if_neg (by simp)]
  · intro heq
    unfold FD.update
    simp only [h.pos, h.est, h.sym]
    rw [if_pos (by simp [hlen]; omega)]
    cases gradientOf (e.stored ++ [(c - x, some (f (c - x)), some w)]) <;> rfl

theorem SymHalf.requested {gates : List (Fin n)}
    {f : Vec n → ℝ} {c eps : Vec n} {k : Nat} {D : Fin k → Vec n × ℝ × ℝ} {x : Vec n} {s : ℝ}
    {e : FD n} (h : SymHalf gates f c eps D x s e) (r : List (Partial n)) :
    SymHalf gates f c eps D x s { e with requested := r } :=
  ⟨h.pos, h.heps, h.sym, h.est, h.support, h.supportx, h.stored⟩

theorem mirrored {gates : List (Fin n)} (c eps : Vec n) {x : Vec n} (hx : ∀ i, i ∉ gates → x i = 0) :
    (fun i => (request gates c eps (.mirror (restrict gates (c + x))) i).getD (c i)) = c - x := by
  ext i
  by_cases hi : i ∈ gates
  · simp [request, hi, restrict]; ring
  · simp [request, hi, hx i hi]

/-- Second measurement of a pair. -/
theorem SymHalf.second {orth : Orth n} {gates : List (Fin n)}
    {f : Vec n → ℝ} {c eps : Vec n} {k : Nat} {D : Fin k → Vec n × ℝ × ℝ} {x : Vec n} {s : ℝ}
    {e : FD n} (h : SymHalf gates f c eps D x s e) (w : ℝ) :
    ∃ e', Sym gates f c eps (Fin.snoc D (x, s, w) : Fin (k + 1) → Vec n × ℝ × ℝ) e' ∧
      (k + 1 ≠ n → round orth gates f c w e = .ok e') ∧
      (k + 1 = n → round orth gates f c w e =
        match gradientOf e'.stored with
        | .error err => .error err
        | .ok r => .ok { e' with estimate := some r }) := by
  obtain ⟨e', h', h1, h2⟩ :=
    (h.requested (e.requested ++ [request gates c eps (.mirror (restrict gates (c + x)))])).update w
  refine ⟨e', h', ?_, ?_⟩
  · intro hne
    unfold round
    rw [h.require (orth := orth)]
    simp only [mirrored c eps h.supportx, h1 hne]
  · intro heq
    unfold round
    rw [h.require (orth := orth)]
    simp only [mirrored c eps h.supportx, h2 heq]
    cases gradientOf e'.stored <;> rfl

/-- The result computed from `n` pairs. -/
theorem gradientOf_pairs (hn : n ≠ 0) {f : Vec n → ℝ} {g : Vec n} (hf : IsAffine f g) (c : Vec n)
    (D : Fin n → Vec n × ℝ × ℝ) (hind : LinearIndependent ℝ fun j => (D j).1) :
    ∃ C, gradientOf (((List.ofFn D).flatMap (pair f c)).map asVals) =
      .ok (fun i => some (g i), some C) := by
  have hl : ∀ {β : Type} (a b : Vec n × ℝ × ℝ → β),
      ((List.ofFn D).flatMap fun d => [a d, b d]).length = 2 * n := by
    intro β a b
    rw [length_flatMap_pair, List.length_ofFn]
  rw [gradientOf_asVals, List.map_flatMap, List.map_flatMap, List.map_flatMap]
  simp only [pair, List.map_cons, List.map_nil]
  rw [calculateGradient_pairs hn _ _ _ (hl _ _) (hl _ _) (hl _ _), pairDiffs_flatMap,
    pairDiffs_flatMap, List.map_ofFn, List.map_ofFn]
  have hind' : LinearIndependent ℝ
      ((fun d : Vec n × ℝ × ℝ => c - d.1 - (c + d.1)) ∘ D) := by
    have h2 := hind.units_smul (fun _ => Units.mk0 (-2 : ℝ) (by norm_num))
    convert h2 using 1
    funext j
    ext i
    simp [Units.smul_def]
    ring
  obtain ⟨C, hC⟩ := fromDiffs_exact _ g
    ((fun d : Vec n × ℝ × ℝ => f (c - d.1) - f (c + d.1)) ∘ D)
    (pairSums ((List.ofFn D).flatMap fun d => [d.2.1, d.2.2])) hind'
    (fun k => hf.sub _ _)
  rw [hC]
  exact ⟨C, rfl⟩

/-- A displacement of zero makes the result an `EvaluationError`. -/
theorem gradientOf_pairs_zero (hn : n ≠ 0) (f : Vec n → ℝ) (c : Vec n)
    (D : Fin n → Vec n × ℝ × ℝ) (j : Fin n) (hj : (D j).1 = 0) :
    gradientOf (((List.ofFn D).flatMap (pair f c)).map asVals) = .error .evaluationError := by
  have hl : ∀ {β : Type} (a b : Vec n × ℝ × ℝ → β),
      ((List.ofFn D).flatMap fun d => [a d, b d]).length = 2 * n := by
    intro β a b
    rw [length_flatMap_pair, List.length_ofFn]
  rw [gradientOf_asVals, List.map_flatMap, List.map_flatMap, List.map_flatMap]
  simp only [pair, List.map_cons, List.map_nil]
  rw [calculateGradient_pairs hn _ _ _ (hl _ _) (hl _ _) (hl _ _), pairDiffs_flatMap,
    List.map_ofFn, fromDiffs_singular]
  intro hli
  exact hli.ne_zero j (by simp [hj])

end Qtune.Gradient
