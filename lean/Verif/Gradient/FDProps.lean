import Verif.Gradient.FDSymRun
import Mathlib.Analysis.Real.Sqrt

/-!
# Properties of the finite difference estimator

`rounds orth gates f c vs e` (`FDSpec`) drives the estimator `e`: ask for a position, measure the
response `f` there (gates that are not mentioned stay at `c`), update; once for each variance in
`vs`.  It fails with the first exception.
-/

namespace Qtune.Gradient

variable {n : Nat}

/-- The estimator reports exactly the gradient `g` and requests nothing any more. -/
def Finished (orth : Orth n) (gates : List (Fin n)) (g : Vec n) (e : FD n) : Prop :=
  (∃ C, e.estimate = some (fun i => some (g i), some C)) ∧ e.require orth gates = (e, .ok none)

theorem finished_of {orth : Orth n} {gates : List (Fin n)} {g c : Vec n} {e : FD n}
    {C : Matrix (Fin n) (Fin n) ℝ} (hp : e.pos = some c)
    (he : e.estimate = some (fun i => some (g i), some C)) : Finished orth gates g e := by
  refine ⟨⟨C, he⟩, ?_⟩
  unfold FD.require
  simp only [hp, he]

/-- An update that does not complete the measurements. -/
theorem update_stores {e : FD n} {c' : Vec n} (p : Vec n) (v s : Val) (hp : e.pos = some c')
    (he : e.estimate = none) (h1 : ¬ (e.symmetric = true ∧ e.stored.length + 1 = 2 * n))
    (h2 : ¬ (e.symmetric = false ∧ e.stored.length + 1 = n + 1)) :
    e.update p v s = ({ e with stored := e.stored ++ [(p, v, s)] }, .ok ()) := by
  unfold FD.update
  simp only [hp, he]
  rw [if_neg (by simpa using h1), if_neg (by simpa using h2)]

/-- The state after the first update. -/
theorem oneSided_start (gates : List (Fin n)) (f : Vec n → ℝ) (c eps : Vec n) (hn : n ≠ 0)
    (start : Option (Vec n)) (hstart : start = none ∨ start = some c) (v₀ : ℝ) :
    ∃ e₁, (FD.new start eps false).update c (some (f c)) (some v₀) = (e₁, .ok ()) ∧
      OneSided gates f c eps 0 e₁ := by
  rcases hstart with rfl | rfl
  · exact ⟨_, rfl, ⟨rfl, rfl, rfl, rfl, fun j => j.elim0, v₀, fun j => j.elim0,
      linearIndependent_empty_type, fun j => j.elim0, rfl⟩⟩
  · refine ⟨{ FD.new (some c) eps false with stored := [(c, some (f c), some v₀)] }, ?_,
      ⟨rfl, rfl, rfl, rfl, fun j => j.elim0, v₀, fun j => j.elim0,
        linearIndependent_empty_type, fun j => j.elim0, rfl⟩⟩
    rw [update_stores (c' := c) _ _ _ rfl rfl (by simp [FD.new]) (by simp [FD.new]; omega)]
    rfl

/-- **C40**.  A one-sided estimator whose position is not set yet, or set to `c`, is updated with the
measurement at `c`.  It has no estimate after fewer than `n` rounds; after `n` rounds, that is
`n + 1` updates, it reports the exact gradient of the affine response, whatever the
variances and the orthogonal vectors are. -/
theorem one_sided_protocol {orth : Orth n} (ho : OrthSpec orth) (hn : n ≠ 0)
    {gates : List (Fin n)} (hnd : gates.Nodup) (hall : ∀ i, i ∈ gates)
    {f : Vec n → ℝ} {g : Vec n} (hf : IsAffine f g) (c : Vec n) {eps : Vec n}
    (heps : ∀ i, 0 < eps i) (start : Option (Vec n)) (hstart : start = none ∨ start = some c)
    (v₀ : ℝ) :
    ∃ e₁, (FD.new start eps false).update c (some (f c)) (some v₀) = (e₁, .ok ()) ∧
      (∀ vs : List ℝ, vs.length < n →
        ∃ e, rounds orth gates f c vs e₁ = .ok e ∧ e.estimate = none) ∧
      (∀ vs : List ℝ, vs.length = n →
        ∃ e, rounds orth gates f c vs e₁ = .ok e ∧ Finished orth gates g e) := by
  have hlen := length_all hnd hall
  obtain ⟨e₁, hu, h₁⟩ := oneSided_start gates f c eps hn start hstart v₀
  refine ⟨e₁, hu, ?_, ?_⟩
  · intro vs hvs
    obtain ⟨e, hr, h⟩ := h₁.many ho hnd heps vs (by omega) (by omega)
    exact ⟨e, hr, h.est⟩
  · intro vs hvs
    have hne : vs ≠ [] := by rintro rfl; exact hn hvs.symm
    have hdl : vs.dropLast.length = n - 1 := by rw [List.length_dropLast, hvs]
    obtain ⟨e₂, hr, h₂⟩ := h₁.many ho hnd heps vs.dropLast (by omega) (by omega)
    obtain ⟨e, C, hr', hp, he⟩ := h₂.last ho hnd hf heps (by omega) (by omega) (vs.getLast hne)
    refine ⟨e, ?_, finished_of hp he⟩
    rw [← List.dropLast_append_getLast hne, rounds_append, hr]
    simp only [rounds, hr']

theorem sym_start (gates : List (Fin n)) (f : Vec n → ℝ) (c eps : Vec n) :
    Sym gates f c eps (fun j : Fin 0 => (j.elim0 : Vec n × ℝ × ℝ)) (FD.new (some c) eps true) :=
  ⟨rfl, rfl, rfl, rfl, fun j => j.elim0, rfl⟩

/-- **C41**, the cases in which it holds: a symmetric estimator that knows its position and is asked
before it is updated, or that learns its position from the first update.  It has no estimate after
fewer than `2 n` rounds and reports the exact gradient after `2 n` rounds.
Missing: the estimator that knows its position and is updated there first, see
`symmetric_protocol_refuted`. -/
theorem symmetric_protocol_partial {orth : Orth n} (ho : OrthSpec orth) (hn : n ≠ 0)
    {gates : List (Fin n)} (hnd : gates.Nodup) (hall : ∀ i, i ∈ gates)
    {f : Vec n → ℝ} {g : Vec n} (hf : IsAffine f g) (c : Vec n) {eps : Vec n}
    (heps : ∀ i, 0 < eps i) (e₁ : FD n)
    (hstart : e₁ = FD.new (some c) eps true ∨
      ∃ v s, e₁ = ((FD.new none eps true).update c v s).1) :
    (∀ vs : List ℝ, vs.length < 2 * n →
      ∃ e, rounds orth gates f c vs e₁ = .ok e ∧ e.estimate = none) ∧
    (∀ vs : List ℝ, vs.length = 2 * n →
      ∃ e, rounds orth gates f c vs e₁ = .ok e ∧ Finished orth gates g e) := by
  have hlen := length_all hnd hall
  have h₁ : e₁ = FD.new (some c) eps true := by
    rcases hstart with h | ⟨v, s, h⟩
    · exact h
    · rw [h]; rfl
  subst h₁
  have hs := sym_start gates f c eps
  refine ⟨fun vs hvs => hs.unfinished ho hnd hlen _ vs le_rfl (by omega), fun vs hvs => ?_⟩
  obtain ⟨D', e', h', hli, -, hr⟩ := hs.finish ho hnd hlen heps (n - 1) 0 vs (by omega) (by omega)
  obtain ⟨C, hC⟩ := gradientOf_pairs hn hf c D' (hli linearIndependent_empty_type)
  rw [h'.stored, hC] at hr
  exact ⟨_, hr, finished_of h'.pos rfl⟩

/-- **C41** is false for an estimator that knows its position: when the first update is the
measurement there, as `NewtonSolver` does it, the protocol ends in an `EvaluationError` after `2 n`
updates.  This is so in every dimension and for every response. -/
theorem symmetric_protocol_refuted {orth : Orth n} (ho : OrthSpec orth) (hn : n ≠ 0)
    {gates : List (Fin n)} (hnd : gates.Nodup) (hall : ∀ i, i ∈ gates)
    (f : Vec n → ℝ) (c : Vec n) {eps : Vec n} (heps : ∀ i, 0 < eps i) (v₀ : ℝ) :
    ∃ e₁, (FD.new (some c) eps true).update c (some (f c)) (some v₀) = (e₁, .ok ()) ∧
      ∀ vs : List ℝ, vs.length = 2 * n - 1 →
        rounds orth gates f c vs e₁ = .error .evaluationError := by
  have hlen := length_all hnd hall
  refine ⟨{ FD.new (some c) eps true with stored := [(c, some (f c), some v₀)] }, ?_, ?_⟩
  · rw [update_stores (c' := c) _ _ _ rfl rfl (by simp [FD.new]; omega) (by simp [FD.new])]
    rfl
  · intro vs hvs
    have hhalf : SymHalf gates f c eps (fun j : Fin 0 => (j.elim0 : Vec n × ℝ × ℝ)) 0 v₀
        { FD.new (some c) eps true with stored := [(c, some (f c), some v₀)] } := by
      refine ⟨rfl, rfl, rfl, rfl, fun j => j.elim0, fun i _ => rfl, ?_⟩
      simp [asVals]
    match vs, hvs with
    | [], hvs => simp at hvs; omega
    | w :: vs, hvs =>
      simp only [List.length_cons] at hvs
      obtain ⟨e₂, h₂, hne, heq⟩ := hhalf.second (orth := orth) w
      by_cases h1 : n = 1
      · subst h1
        obtain rfl : vs = [] := List.length_eq_zero_iff.1 (by omega)
        have hz := gradientOf_pairs_zero hn f c
          (Fin.snoc (fun j : Fin 0 => (j.elim0 : Vec 1 × ℝ × ℝ)) (0, v₀, w)) 0 rfl
        rw [h₂.stored, hz] at heq
        simp only [rounds, heq rfl]
      · obtain ⟨D', e', h', -, hz, hr⟩ := h₂.finish ho hnd hlen heps (n - 2) 1 vs (by omega) (by omega)
        obtain ⟨j, hj⟩ := hz ⟨0, rfl⟩
        rw [h'.stored, gradientOf_pairs_zero hn f c D' j hj] at hr
        simp only [rounds, hne (by omega), hr]

/-- **C42**, the case in which it holds: before the first stored measurement. -/
theorem estimator_reload_partial (e : FD n) (h : e.stored = []) : e.reload = .ok e := by
  unfold FD.reload
  rw [h]

/-- **C42** is false: an estimator that has stored a measurement cannot be rebuilt, and no later
request or update changes this. -/
theorem estimator_reload_refuted (orth : Orth n) (gates : List (Fin n)) (p : Vec n)
    (value variance : Val) (e : FD n) :
    (e.pos ≠ none → e.estimate = none →
      (e.update p value variance).1.reload = .error .assertionError) ∧
    (e.reload = .error .assertionError →
      (e.update p value variance).1.reload = .error .assertionError ∧
      (e.require orth gates).1.reload = .error .assertionError) := by
  have key : ∀ e' : FD n, e'.stored ≠ [] → e'.reload = .error .assertionError := by
    intro e' h
    unfold FD.reload
    split
    · rename_i h'; exact absurd h' h
    · rfl
  have key' : e.reload = .error .assertionError → e.stored ≠ [] := by
    intro h h'
    rw [estimator_reload_partial e h'] at h
    cases h
  refine ⟨?_, fun h => ⟨?_, ?_⟩⟩
  · intro hp he
    apply key
    obtain ⟨c, hc⟩ := Option.ne_none_iff_exists'.1 hp
    unfold FD.update
    simp only [hc, he]
    split_ifs
    · split <;> simp
    · split <;> simp
    · simp
  · apply key
    have hs := key' h
    unfold FD.update
    split
    · simp only
      split_ifs
      · exact hs
      · simp
    · split
      · exact hs
      · simp only
        split_ifs
        · split <;> simp
        · split <;> simp
        · simp
  · apply key
    have hs := key' h
    unfold FD.require
    split
    · exact hs
    · split
      · exact hs
      · split
        · exact hs
        · exact hs

/-- **C80** is false (one-sided): if fewer gates are moved than the estimator has, the protocol goes
on until as many points are measured as there are gates to move, then the next request is a
`ValueError`; there is never an estimate. -/
theorem subset_protocol_refuted {orth : Orth n} (ho : OrthSpec orth)
    {gates : List (Fin n)} (hnd : gates.Nodup) (hsome : ∃ i, i ∉ gates)
    (f : Vec n → ℝ) (c : Vec n) {eps : Vec n} (heps : ∀ i, 0 < eps i)
    (start : Option (Vec n)) (hstart : start = none ∨ start = some c) (v₀ : ℝ) :
    ∃ e₁, (FD.new start eps false).update c (some (f c)) (some v₀) = (e₁, .ok ()) ∧
      ∀ vs : List ℝ, vs.length = gates.length →
        ∃ e, rounds orth gates f c vs e₁ = .ok e ∧ e.estimate = none ∧
          e.require orth gates = (e, .error .valueError) := by
  obtain ⟨i₀, hi₀⟩ := hsome
  have hn : n ≠ 0 := by rintro rfl; exact i₀.elim0
  have hlt : gates.length < n := by
    have h1 : (i₀ :: gates).Nodup := List.nodup_cons.2 ⟨hi₀, hnd⟩
    have h2 := h1.length_le_card
    simp at h2
    omega
  obtain ⟨e₁, hu, h₁⟩ := oneSided_start gates f c eps hn start hstart v₀
  refine ⟨e₁, hu, fun vs hvs => ?_⟩
  obtain ⟨e, hr, h⟩ := h₁.many ho hnd heps vs (by omega) (by omega)
  refine ⟨e, hr, h.est, ?_⟩
  obtain ⟨d, s₀, s, hind, hsup, hst⟩ := h.stored
  have hmeas : e.stored.map (fun m => restrict gates m.1) =
      restrict gates c :: List.ofFn fun j => restrict gates (c + d j) := by
    rw [hst]
    simp [List.map_ofFn, Function.comp_def]
  have hnext : nextPoint orth gates false
      (restrict gates c :: List.ofFn fun j => restrict gates (c + d j)) = .error .valueError := by
    rcases Nat.eq_zero_or_pos (0 + vs.length) with h0 | hpos
    · have horth : orth gates [0] = none :=
        no_room ho hnd (by omega) hind hsup _ (fun j => absurd j.2 (by omega))
      have hnil : (List.ofFn fun j => restrict gates (c + d j)) = [] :=
        List.length_eq_zero_iff.1 (by rw [List.length_ofFn]; exact h0)
      rw [hnil]
      simp [nextPoint, horth]
    · have hbase : baseDiffs (restrict gates c :: List.ofFn fun j => restrict gates (c + d j)) =
          List.ofFn d := by
        simp only [baseDiffs, List.map_ofFn, Function.comp_def]
        congr 1
        funext j
        exact restrict_add c (d j) (hsup j)
      have horth : orth gates (List.ofFn d) = none :=
        no_room ho hnd (by omega) hind hsup _
          (fun j => ⟨1, one_ne_zero, by rw [one_smul]; exact (List.mem_ofFn' _ _).2 ⟨j, rfl⟩⟩)
      unfold nextPoint
      rw [hbase, horth]
      split
      · rename_i heq; simp at heq
      · simp only [List.length_cons, List.length_ofFn, Bool.false_eq_true, if_false]
        rw [if_neg (by omega), if_pos (by omega)]
  unfold FD.require
  simp only [h.pos, h.est, hmeas, h.sym, hnext]

/-- **C79** is false: a one-sided estimator that knows its position and is asked before it is updated
asks for the same point again and again, and the `n + 1`st measurement ends in an
`EvaluationError`.  The hypothesis on `orth` is what sympy computes: the first null vector of a
matrix of zeros is the first unit vector. -/
theorem request_first_refuted {orth : Orth n} (g : Fin n) (gs : List (Fin n))
    (horth : ∀ k, orth (g :: gs) (List.replicate (k + 1) 0) = some (Pi.single g 1))
    (f : Vec n → ℝ) (c eps : Vec n) (vs : List ℝ) (hvs : vs.length = n + 1) :
    rounds orth (g :: gs) f c vs (FD.new (some c) eps false) = .error .evaluationError := by
  have hn : n ≠ 0 := by rintro rfl; exact g.elim0
  let p : Vec n := c + scaled (Pi.single g 1) eps
  have hsup : ∀ i, i ∉ g :: gs → (Pi.single g 1 : Vec n) i = 0 := by
    intro i hi
    have : i ≠ g := by rintro rfl; exact hi List.mem_cons_self
    simp [this]
  -- the state after `k` rounds
  have step : ∀ (ss ws : List ℝ) (e : FD n), ss.length + ws.length = n + 1 → ws ≠ [] →
      e.pos = some c → e.eps = eps → e.symmetric = false → e.estimate = none →
      e.stored = ss.map (fun s => (p, some (f p), some s)) →
      rounds orth (g :: gs) f c ws e = .error .evaluationError := by
    intro ss ws
    induction ws generalizing ss with
    | nil => intro e _ h; exact absurd rfl h
    | cons w ws ih =>
      intro e hl _ hp he hsy hest hst
      simp only [List.length_cons] at hl
      have hmeas : e.stored.map (fun m => restrict (g :: gs) m.1) =
          List.replicate ss.length (restrict (g :: gs) p) := by
        rw [hst, List.map_map]
        simp [Function.comp_def]
      have hnext : nextPoint orth (g :: gs) false
          (List.replicate ss.length (restrict (g :: gs) p)) = .ok (.offset (Pi.single g 1)) := by
        match ss, hl with
        | [], _ => rfl
        | [_], _ =>
          have := horth 0
          simp only [List.replicate] at this
          simp [nextPoint, List.replicate, this]
        | _ :: _ :: ss, hl =>
          simp only [List.length_cons] at hl
          have hb : baseDiffs (List.replicate (ss.length + 1 + 1) (restrict (g :: gs) p)) =
              List.replicate (ss.length + 1) 0 := by
            rw [List.replicate_succ]
            simp [baseDiffs]
          unfold nextPoint
          simp only [List.length_cons]
          rw [hb, horth]
          split
          · rename_i heq; simp at heq
          · simp only [List.length_replicate, Bool.false_eq_true, if_false]
            rw [if_neg (by omega), if_pos (by omega)]
      have hreq : e.require orth (g :: gs) =
          ({ e with requested := e.requested ++ [request (g :: gs) c eps (.offset (Pi.single g 1))] },
            .ok (some (request (g :: gs) c eps (.offset (Pi.single g 1))))) := by
        unfold FD.require
        simp only [hp, hest, hsy, hmeas, hnext, he]
      have hst' : e.stored ++ [(p, some (f p), some w)] =
          (ss ++ [w]).map (fun s => (p, some (f p), some s)) := by
        rw [hst]; simp
      unfold rounds round
      rw [hreq]
      simp only [displaced c _ eps hsup]
      change (match (match FD.update p (some (f p)) (some w) _ with
        | (_, .error err) => Except.error err
        | (e'', .ok ()) => Except.ok e'') with
        | .error err => Except.error err
        | .ok e' => rounds orth (g :: gs) f c ws e') = _
      unfold FD.update
      simp only [hp, hest, hsy, Bool.false_eq_true, false_and, if_false, true_and, hst']
      by_cases hlast : ws = []
      · subst hlast
        simp only [List.length_nil] at hl
        rw [if_pos (by simp; omega), ← List.map_reverse]
        have hl' : (ss ++ [w]).reverse.length = n + 1 := by simp; omega
        generalize (ss ++ [w]).reverse = rs at hl'
        have : rs.map (fun s => (p, some (f p), some s)) =
            (rs.map fun s => (p, f p, s)).map asVals := by
          rw [List.map_map]; rfl
        rw [this, gradientOf_asVals]
        simp only [List.map_map, Function.comp_def]
        obtain ⟨S, rfl⟩ : ∃ S : Fin (n + 1) → ℝ, rs = List.ofFn S := by
          refine ⟨fun j => rs.get (j.cast hl'.symm), ?_⟩
          apply List.ext_getElem
          · simp [hl']
          · intro i h1 h2; simp [-List.ofFn_succ]
        simp only [List.map_ofFn, Function.comp_def]
        rw [gradient_dependent_base (fun _ => p) (fun _ => f p)]
        intro hli
        exact hli.ne_zero (⟨0, Nat.pos_of_ne_zero hn⟩ : Fin n) (by simp)
      · have : 0 < ws.length := List.length_pos_iff.2 hlast
        rw [if_neg (by simp; omega)]
        exact ih (ss ++ [w]) _ (by simp; omega) hlast rfl he rfl rfl rfl
  exact step [] vs _ (by simpa using hvs) (by rintro rfl; simp at hvs) rfl rfl rfl rfl rfl

/-! ## The assumptions on the null space can be met -/

/-- There is a function that computes orthogonal vectors as assumed. -/
theorem exists_orth (n : Nat) : ∃ orth : Orth n, OrthSpec orth := by
  classical
  let good : List (Fin n) → List (Vec n) → Vec n → Prop := fun gates vs u =>
    (∀ i, i ∉ gates → u i = 0) ∧ (∀ v ∈ vs, inner u v = 0) ∧ inner u u = 1
  refine ⟨fun gates vs => if h : ∃ u, good gates vs u then some h.choose else none, ?_, ?_, ?_, ?_⟩
  · intro gates vs u h
    split_ifs at h with hex
    cases h
    exact hex.choose_spec.1
  · intro gates vs u h
    split_ifs at h with hex
    cases h
    exact hex.choose_spec.2.2
  · intro gates vs u h
    split_ifs at h with hex
    cases h
    exact hex.choose_spec.2.1
  · intro gates vs u hsup hort hne
    have hpos : 0 < inner u u := by
      have h0 : 0 ≤ inner u u := Finset.sum_nonneg fun i _ => mul_self_nonneg _
      rcases h0.lt_or_eq with h | h
      · exact h
      · exfalso
        apply hne
        funext i
        have := (Finset.sum_eq_zero_iff_of_nonneg (fun i _ => mul_self_nonneg (u i))).1 h.symm i
          (Finset.mem_univ i)
        exact mul_self_eq_zero.1 this
    have hs : Real.sqrt (inner u u) * Real.sqrt (inner u u) = inner u u :=
      Real.mul_self_sqrt hpos.le
    have hs0 : Real.sqrt (inner u u) ≠ 0 := (Real.sqrt_pos.2 hpos).ne'
    have hgood : ∃ u, good gates vs u := by
      refine ⟨fun i => (Real.sqrt (inner u u))⁻¹ * u i, ?_, ?_, ?_⟩
      · intro i hi; simp [hsup i hi]
      · intro v hv
        have := hort v hv
        unfold inner at this ⊢
        simp only [mul_assoc, ← Finset.mul_sum, this, mul_zero]
      · have key : ∀ r : ℝ, inner (fun i => r * u i) (fun i => r * u i) = r * r * inner u u := by
          intro r
          unfold inner
          rw [Finset.mul_sum]
          exact Finset.sum_congr rfl fun i _ => by ring
        rw [key]
        generalize Real.sqrt (inner u u) = r at hs hs0
        rw [← hs]
        field_simp
    rw [dif_pos hgood]
    simp

/-- A response of two gates. -/
def sampleResponse (v : Vec 2) : ℝ := 3 * v 0 - 2 * v 1 + 5

theorem sampleResponse_affine : IsAffine sampleResponse ![3, -2] := by
  refine ⟨5, fun v => ?_⟩
  simp [sampleResponse, Fin.sum_univ_two]
  ring

example : ∃ orth : Orth 2, OrthSpec orth ∧ ∃ e₁,
    (FD.new none (fun _ => 1 / 10) false).update ![1, 2] (some (sampleResponse ![1, 2])) (some 1) =
      (e₁, .ok ()) ∧
    ∃ e, rounds orth [1, 0] sampleResponse ![1, 2] [1, 2] e₁ = .ok e ∧
      Finished orth [1, 0] ![3, -2] e := by
  obtain ⟨orth, ho⟩ := exists_orth 2
  obtain ⟨e₁, h₁, -, h₃⟩ := one_sided_protocol ho two_ne_zero (gates := [1, 0]) (by simp)
    (by intro i; fin_cases i <;> simp) sampleResponse_affine ![1, 2] (eps := fun _ => 1 / 10)
    (by intro i; norm_num) none (Or.inl rfl) 1
  exact ⟨orth, ho, e₁, h₁, h₃ [1, 2] rfl⟩

example : ∃ orth : Orth 2, OrthSpec orth ∧
    ∃ e, rounds orth [0, 1] sampleResponse ![1, 2] [1, 2, 3, 4]
      (FD.new (some ![1, 2]) (fun _ => 1 / 10) true) = .ok e ∧ Finished orth [0, 1] ![3, -2] e := by
  obtain ⟨orth, ho⟩ := exists_orth 2
  exact ⟨orth, ho, (symmetric_protocol_partial ho two_ne_zero (gates := [0, 1]) (by simp)
    (by intro i; fin_cases i <;> simp) sampleResponse_affine ![1, 2] (eps := fun _ => 1 / 10)
    (by intro i; norm_num) _ (Or.inl rfl)).2 [1, 2, 3, 4] rfl⟩

example : ∃ orth : Orth 2, OrthSpec orth ∧ ∃ e₁,
    (FD.new (some ![1, 2]) (fun _ => 1 / 10) true).update ![1, 2] (some (sampleResponse ![1, 2]))
      (some 1) = (e₁, .ok ()) ∧
    rounds orth [0, 1] sampleResponse ![1, 2] [1, 2, 3] e₁ = .error .evaluationError := by
  obtain ⟨orth, ho⟩ := exists_orth 2
  obtain ⟨e₁, h₁, h₂⟩ := symmetric_protocol_refuted ho two_ne_zero (gates := [0, 1]) (by simp)
    (by intro i; fin_cases i <;> simp) sampleResponse ![1, 2] (eps := fun _ => 1 / 10)
    (by intro i; norm_num) 1
  exact ⟨orth, ho, e₁, h₁, h₂ [1, 2, 3] rfl⟩

example : ∃ orth : Orth 2, ∃ e₁ e, (FD.new (some ![1, 2]) (fun _ => 1 / 10) false).update ![1, 2]
      (some (sampleResponse ![1, 2])) (some 1) = (e₁, .ok ()) ∧
    rounds orth [1] sampleResponse ![1, 2] [1] e₁ = .ok e ∧
    e.require orth [1] = (e, .error .valueError) := by
  obtain ⟨orth, ho⟩ := exists_orth 2
  obtain ⟨e₁, h₁, h₂⟩ := subset_protocol_refuted ho (gates := [1]) (by simp) ⟨0, by simp⟩
    sampleResponse ![1, 2] (eps := fun _ => 1 / 10) (by intro i; norm_num) _ (Or.inr rfl) 1
  obtain ⟨e, h₃, -, h₄⟩ := h₂ [1] rfl
  exact ⟨orth, e₁, e, h₁, h₃, h₄⟩

example : rounds (fun _ _ => some (Pi.single 0 1)) [0, 1] sampleResponse ![1, 2] [1, 2, 3]
    (FD.new (some ![1, 2]) (fun _ => 1 / 10) false) = .error .evaluationError :=
  request_first_refuted 0 [1] (fun _ => rfl) _ _ _ _ rfl

end Qtune.Gradient
