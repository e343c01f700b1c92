import Verif.NelderMead.Props

/-! # Properties of the Nelder-Mead solver: the moves after a reflection, and the shrink -/

namespace Qtune.NelderMead

open Qtune.Gradient

variable {n : Nat} {V : Type}

/-- The centroid of the simplex. -/
noncomputable def centroid (l : List (Vec n × V)) : Vec n := fun i => (l.map fun e => e.1 i).sum / l.length

/-- The next call of `suggest_next_position` returns the point `m + t * (m - w)` on the line from the worst
point `w` of the simplex through its centroid `m`. -/
def Suggests (orth : Orth n) (s : State n V) (t : ℝ) : Prop :=
  ∀ w, s.simplex.getLast? = some w →
    (suggest orth s).2 = .ok fun i => centroid s.simplex i + t * (centroid s.simplex i - w.1 i)

theorem centroid_eq (l : List (Vec n × V)) : centroid l = mean (l.map Prod.fst) := by
  funext i
  simp [centroid, mean, Function.comp_def]

theorem suggests_of_phase (orth : Orth n) {s : State n V} (hc : s.simplex.length = n + 1) (t : ℝ)
    (h : (s.phase = .startIteration ∨ s.phase = .reflect) ∧ t = 1 ∨ s.phase = .expand ∧ t = 2 ∨
      s.phase = .contractOutside ∧ t = 1 / 2 ∨ s.phase = .contractInside ∧ t = -1 / 2) :
    Suggests orth s t := by
  intro w hw
  have hl : (s.simplex.map Prod.fst).getLast? = some w.1 := by simp [hw]
  unfold suggest
  simp only [hl]
  rw [if_neg (by omega), centroid_eq]
  rcases h with ⟨hp, ht⟩ | ⟨hp, ht⟩ | ⟨hp, ht⟩ | ⟨hp, ht⟩
  · rcases hp with hp | hp <;>
    · simp only [hp, ht]
      refine congrArg Except.ok (funext fun i => ?_)
      simp only [Pi.sub_apply, Pi.smul_apply, smul_eq_mul]
      ring
  all_goals
    simp only [hp, ht]
    refine congrArg Except.ok (funext fun i => ?_)
    simp only [Pi.add_apply, Pi.sub_apply, Pi.smul_apply, smul_eq_mul]
    try ring

/-- Inserting a point that is better than the worst one drops the worst one. -/
theorem insert_drops_worst (cost : V → ℝ) {l : List (Vec n × V)} (hsort : Sorted cost l) {w : Vec n × V}
    (hw : l.getLast? = some w) {q : Vec n} {v : V} (hlt : cost v < cost w.2) :
    (insert cost l (q, v)).Perm ((q, v) :: l.dropLast) := by
  have hsplit : l = l.dropLast ++ [w] := by
    conv_lhs => rw [← List.dropLast_append_getLast? w hw]
  have hperm := sortByCost_perm cost (l ++ [(q, v)])
  have hsorted := sortByCost_sorted cost (l ++ [(q, v)])
  unfold insert
  obtain ⟨z, hz⟩ := getLast?_of_pos (l := sortByCost cost (l ++ [(q, v)])) (by
    rw [hperm.length_eq]; simp)
  have hz' : sortByCost cost (l ++ [(q, v)]) =
      (sortByCost cost (l ++ [(q, v)])).dropLast ++ [z] := by
    conv_lhs => rw [← List.dropLast_append_getLast? z hz]
  have hzw : z = w := by
    -- `sorted` is stable: `w` is the last of the points with the largest cost
    have hst := List.sublist_mergeSort (le := fun a b : Vec n × V => decide (cost a.2 ≤ cost b.2))
      (ys := l) (xs := l ++ [(q, v)])
      (fun a b c hab hbc => by
        simp only [decide_eq_true_eq] at hab hbc ⊢; exact le_trans hab hbc)
      (fun a b => by simp only [Bool.or_eq_true, decide_eq_true_eq]; exact le_total _ _)
      (by
        refine hsort.imp ?_
        intro a b hab
        simpa using hab) (List.sublist_append_left _ _)
    have hst' : l.Sublist (sortByCost cost (l ++ [(q, v)])) := hst
    have hwmem : w ∈ (sortByCost cost (l ++ [(q, v)])).dropLast ++ [z] := by
      rw [← hz']
      exact hst'.subset (List.mem_of_getLast? hw)
    have hzmem : z ∈ l ++ [(q, v)] := hperm.subset (List.mem_of_getLast? hz)
    have hzcost : cost w.2 ≤ cost z.2 := by
      rcases List.mem_append.1 hwmem with hx | hx
      · unfold Sorted at hsorted
        rw [hz', List.pairwise_append] at hsorted
        exact hsorted.2.2 w hx z (by simp)
      · simp only [List.mem_singleton] at hx
        rw [hx]
    have hzne : z ≠ (q, v) := by
      rintro rfl
      linarith
    -- the sublist of length one less that is not missing the last element
    have hlen : (sortByCost cost (l ++ [(q, v)])).length = l.length + 1 := by
      rw [hperm.length_eq]; simp
    by_contra hne
    have hst'' : (l.dropLast ++ [w]).Sublist
        ((sortByCost cost (l ++ [(q, v)])).dropLast ++ [z]) := by
      rw [← hz', ← hsplit]
      exact hst'
    rw [List.sublist_append_iff] at hst''
    obtain ⟨l₁, l₂, hl, hl₁, hl₂⟩ := hst''
    rcases List.sublist_singleton.1 hl₂ with h0 | h0
    · -- the simplex is all of the sorted list but `z`; then `z` is the new point
      subst h0
      rw [List.append_nil] at hl
      rw [← hl] at hl₁
      have heq := hl₁.eq_of_length (by
        rw [← hsplit, List.length_dropLast, hlen]; rfl)
      have hp2 : ((l.dropLast ++ [w]) ++ [z]).Perm (l ++ [(q, v)]) := by
        rw [heq, ← hz']
        exact hperm
      rw [← hsplit] at hp2
      have := (List.perm_append_left_iff _).1 hp2
      rw [List.singleton_perm_singleton] at this
      exact hzne this
    · subst h0
      have := congrArg List.getLast? hl
      simp at this
      exact hne this.symm
  rw [hzw] at hz'
  have hp2 : ((sortByCost cost (l ++ [(q, v)])).dropLast ++ [w]).Perm
      (l ++ [(q, v)]) := by
    rw [← hz']; exact hperm
  have hp3 : (l ++ [(q, v)]).Perm (((q, v) :: l.dropLast) ++ [w]) := by
    conv_lhs => rw [hsplit]
    exact List.perm_append_comm.trans (by simp)
  exact (List.perm_append_right_iff [w]).1 (hp2.trans hp3)

/-- A round: the suggestion is asked for, then something is measured somewhere. -/
noncomputable def round (orth : Orth n) (cost : V → ℝ) (s : State n V) (e : Vec n × V) : State n V :=
  (update cost e.1 e.2 (suggest orth s).1).1

/-- The order of the best, the second worst and the worst point. -/
theorem order (cost : V → ℝ) {l : List (Vec n × V)} (hsort : Sorted cost l) {b w₂ w : Vec n × V}
    (hb : l.head? = some b) (hw₂ : l.dropLast.getLast? = some w₂) (hw : l.getLast? = some w) :
    cost b.2 ≤ cost w₂.2 ∧ cost w₂.2 ≤ cost w.2 := by
  have hsplit : l = l.dropLast ++ [w] := by
    conv_lhs => rw [← List.dropLast_append_getLast? w hw]
  constructor
  · have h2 : w₂ ∈ l := List.dropLast_subset _ (List.mem_of_getLast? hw₂)
    rcases l with _ | ⟨a, t⟩
    · cases hb
    · cases hb
      rcases List.mem_cons.1 h2 with rfl | h2
      · exact le_refl _
      · exact (List.pairwise_cons.1 hsort).1 _ h2
  · have h2 : w₂ ∈ l.dropLast := List.mem_of_getLast? hw₂
    unfold Sorted at hsort
    rw [hsplit, List.pairwise_append] at hsort
    exact hsort.2.2 w₂ h2 w (by simp)

theorem round_reflect (orth : Orth n) (cost : V → ℝ) {s : State n V} (hc : s.simplex.length = n + 1)
    (hp : s.phase = .startIteration ∨ s.phase = .reflect) {b w₂ w : Vec n × V}
    (hb : s.simplex.head? = some b) (hw₂ : s.simplex.dropLast.getLast? = some w₂)
    (hw : s.simplex.getLast? = some w) (q : Vec n) (v : V) :
    round orth cost s (q, v) =
      if cost v < cost b.2 then { s with phase := .expand, reflected := some (q, v), pos := q, vals := v }
      else if cost w₂.2 ≤ cost v then
        if cost v < cost w.2 then
          { s with phase := .contractOutside, reflected := some (q, v), pos := q, vals := v }
        else { s with phase := .contractInside, reflected := some (q, v), pos := q, vals := v }
      else { s with
              phase := .reflect
              simplex := insert cost s.simplex (q, v)
              reflected := some (q, v)
              pos := q
              vals := v } := by
  have hs : (suggest orth s).1 = { s with phase := .reflect } := by
    have hl : (s.simplex.map Prod.fst).getLast? = some w.1 := by simp [hw]
    unfold suggest
    simp only [hl]
    rw [if_neg (by omega)]
    rcases hp with hp | hp <;> simp only [hp]
  have hh : (s.simplex.map fun e => cost e.2).head? = some (cost b.2) := by simp [hb]
  have hh₂ : (s.simplex.map fun e => cost e.2).dropLast.getLast? = some (cost w₂.2) := by
    rw [show (s.simplex.map fun e => cost e.2).dropLast = s.simplex.dropLast.map fun e => cost e.2
      from List.map_dropLast.symm, List.getLast?_map, hw₂]
    rfl
  have hh₃ : (s.simplex.map fun e => cost e.2).getLast? = some (cost w.2) := by
    rw [List.getLast?_map, hw]
    rfl
  unfold round
  rw [hs]
  unfold update step
  simp only
  rw [if_neg (by omega)]
  simp only [hh, hh₂, hh₃]
  split_ifs <;> rfl

/-- Asking for a suggestion while an expansion or a contraction is awaited changes nothing. -/
theorem suggest_waiting (orth : Orth n) {s : State n V} (hc : s.simplex.length = n + 1)
    (hp : s.phase = .expand ∨ s.phase = .contractOutside ∨ s.phase = .contractInside) :
    (suggest orth s).1 = s := by
  obtain ⟨w, hw⟩ := getLast?_of_pos (l := s.simplex.map Prod.fst) (by simp; omega)
  unfold suggest
  simp only [hw]
  rw [if_neg (by omega)]
  rcases hp with hp | hp | hp <;> simp only [hp]

/-- **C108**.  A complete simplex with best point `b`, second worst point `w₂` and worst point `w`, in any
run.  If the solver is reflecting, it suggests the mirror image of the worst point in the centroid; after
the value `v` has been measured there, the next suggestion is
* the expansion, twice as far from the centroid, if `v` is better than the best point,
* the outside contraction, half as far, if `v` is not better than the second worst but better than the worst
  point,
* the inside contraction, half way between worst point and centroid, if `v` is not better than the worst,
* the reflection of the worst point of the new simplex, from which the former worst point has been
  dropped, in all other cases. -/
theorem moves_after_reflection (hn : n ≠ 0) {orth : Orth n} {cost : V → ℝ} {s : State n V}
    {h : List (Vec n × V)} (hr : Run orth cost s h) (hc : s.simplex.length = n + 1)
    (hp : s.phase = .startIteration ∨ s.phase = .reflect) (b w₂ w : Vec n × V)
    (hb : s.simplex.head? = some b) (hw₂ : s.simplex.dropLast.getLast? = some w₂)
    (hw : s.simplex.getLast? = some w) (q : Vec n) (v : V) :
    Suggests orth s 1 ∧
    let s' := round orth cost s (q, v)
    (cost v < cost b.2 → s'.simplex = s.simplex ∧ Suggests orth s' 2) ∧
    (cost b.2 ≤ cost v → cost v < cost w₂.2 → s'.simplex.Perm ((q, v) :: s.simplex.dropLast) ∧
      Suggests orth s' 1) ∧
    (cost b.2 ≤ cost v → cost w₂.2 ≤ cost v → cost v < cost w.2 →
      s'.simplex = s.simplex ∧ Suggests orth s' (1 / 2)) ∧
    (cost w.2 ≤ cost v → s'.simplex = s.simplex ∧ Suggests orth s' (-1 / 2)) := by
  have hsort := ((hr.inv hn).complete hc).2
  obtain ⟨hbw₂, hle⟩ := order cost hsort hb hw₂ hw
  refine ⟨suggests_of_phase orth hc 1 (.inl ⟨hp, rfl⟩), ?_⟩
  intro s'
  have hs' : s' = _ := round_reflect orth cost hc hp hb hw₂ hw q v
  refine ⟨?_, ?_, ?_, ?_⟩
  · intro hlt
    rw [if_pos hlt] at hs'
    rw [hs']
    exact ⟨rfl, suggests_of_phase orth (by exact hc) 2 (.inr (.inl ⟨rfl, rfl⟩))⟩
  · intro hge hlt
    rw [if_neg (not_lt.2 hge), if_neg (not_le.2 hlt)] at hs'
    rw [hs']
    exact ⟨insert_drops_worst cost hsort hw (lt_of_lt_of_le hlt hle), suggests_of_phase orth (by
      show (insert cost s.simplex (q, v)).length = n + 1
      rw [insert_length, hc]) 1 (.inl ⟨.inr rfl, rfl⟩)⟩
  · intro hge h2 h3
    rw [if_neg (not_lt.2 hge), if_pos h2, if_pos h3] at hs'
    rw [hs']
    exact ⟨rfl, suggests_of_phase orth (by exact hc) _ (.inr (.inr (.inl ⟨rfl, rfl⟩)))⟩
  · intro h3
    rw [if_neg (not_lt.2 (hbw₂.trans (hle.trans h3))), if_pos (hle.trans h3), if_neg (not_lt.2 h3)] at hs'
    rw [hs']
    exact ⟨rfl, suggests_of_phase orth (by exact hc) _ (.inr (.inr (.inr ⟨rfl, rfl⟩)))⟩

/-- **C108**, the end of the iteration: after the measurement `v` at the reflected point and `v'` at the
expansion or contraction point that was suggested then,
* of the reflected and the expanded point the better one replaces the worst point of the simplex,
* a contracted point replaces the worst point of the simplex if it is better than the reflected (outside)
  or the worst point (inside). -/
theorem moves_end (hn : n ≠ 0) {orth : Orth n} {cost : V → ℝ} {s : State n V}
    {h : List (Vec n × V)} (hr : Run orth cost s h) (hc : s.simplex.length = n + 1)
    (hp : s.phase = .startIteration ∨ s.phase = .reflect) (b w₂ w : Vec n × V)
    (hb : s.simplex.head? = some b) (hw₂ : s.simplex.dropLast.getLast? = some w₂)
    (hw : s.simplex.getLast? = some w) (q q' : Vec n) (v v' : V) :
    let l := (round orth cost (round orth cost s (q, v)) (q', v')).simplex
    (cost v < cost b.2 → cost v' < cost v → l.Perm ((q', v') :: s.simplex.dropLast)) ∧
    (cost v < cost b.2 → cost v ≤ cost v' → l.Perm ((q, v) :: s.simplex.dropLast)) ∧
    (cost b.2 ≤ cost v → cost w₂.2 ≤ cost v → cost v < cost w.2 → cost v' < cost v →
      l.Perm ((q', v') :: s.simplex.dropLast)) ∧
    (cost w.2 ≤ cost v → cost v' < cost w.2 → l.Perm ((q', v') :: s.simplex.dropLast)) := by
  have hsort := ((hr.inv hn).complete hc).2
  obtain ⟨hbw₂, hle⟩ := order cost hsort hb hw₂ hw
  have hh₃ : (s.simplex.map fun e => cost e.2).getLast? = some (cost w.2) := by
    rw [List.getLast?_map, hw]
    rfl
  intro l
  have hl : l = (round orth cost (round orth cost s (q, v)) (q', v')).simplex := rfl
  rw [round_reflect orth cost hc hp hb hw₂ hw q v] at hl
  refine ⟨?_, ?_, ?_, ?_⟩
  · intro h1 h2
    rw [if_pos h1, round, suggest_waiting orth (by exact hc) (.inl rfl), update, step] at hl
    simp only at hl
    rw [if_neg (by omega), if_pos h2] at hl
    rw [hl]
    exact insert_drops_worst cost hsort hw (by linarith)
  · intro h1 h2
    rw [if_pos h1, round, suggest_waiting orth (by exact hc) (.inl rfl), update, step] at hl
    simp only at hl
    rw [if_neg (by omega), if_neg (not_lt.2 h2)] at hl
    rw [hl]
    exact insert_drops_worst cost hsort hw (by linarith)
  · intro h1 h2 h3 h4
    rw [if_neg (not_lt.2 h1), if_pos h2, if_pos h3, round, suggest_waiting orth (by exact hc)
      (.inr (.inl rfl)), update, step] at hl
    simp only at hl
    rw [if_neg (by omega), if_pos h4] at hl
    rw [hl]
    exact insert_drops_worst cost hsort hw (by linarith)
  · intro h3 h4
    rw [if_neg (not_lt.2 (hbw₂.trans (hle.trans h3))), if_pos (hle.trans h3), if_neg (not_lt.2 h3), round,
      suggest_waiting orth (by exact hc) (.inr (.inr rfl)), update, step] at hl
    simp only [hh₃] at hl
    rw [if_neg (by omega), if_pos h4] at hl
    rw [hl]
    exact insert_drops_worst cost hsort hw h4

/-- `l` consists of the best `l.length` points of `all`. -/
def BestOf (cost : V → ℝ) (l all : List (Vec n × V)) : Prop :=
  ∃ rest, (l ++ rest).Perm all ∧ ∀ x ∈ l, ∀ z ∈ rest, cost x.2 ≤ cost z.2

theorem bestOf_insert (cost : V → ℝ) {l all : List (Vec n × V)} (h : BestOf cost l all) (e : Vec n × V) :
    BestOf cost (insert cost l e) (all ++ [e]) := by
  obtain ⟨rest, hp, hle⟩ := h
  have hperm := sortByCost_perm cost (l ++ [e])
  have hsorted := sortByCost_sorted cost (l ++ [e])
  obtain ⟨z, hz⟩ := getLast?_of_pos (l := sortByCost cost (l ++ [e])) (by
    rw [hperm.length_eq]; simp)
  have hz' : sortByCost cost (l ++ [e]) = insert cost l e ++ [z] := by
    conv_lhs => rw [← List.dropLast_append_getLast? z hz]
    rfl
  have hp2 : (insert cost l e ++ [z]).Perm (l ++ [e]) := by rw [← hz']; exact hperm
  have hlz : ∀ x ∈ insert cost l e, cost x.2 ≤ cost z.2 := by
    intro x hx
    unfold Sorted at hsorted
    rw [hz', List.pairwise_append] at hsorted
    exact hsorted.2.2 x hx z (by simp)
  refine ⟨z :: rest, ?_, ?_⟩
  · have h1 : (insert cost l e ++ z :: rest).Perm ((insert cost l e ++ [z]) ++ rest) := by simp
    refine h1.trans ((hp2.append_right rest).trans ?_)
    have h2 : (l ++ [e] ++ rest).Perm ((l ++ rest) ++ [e]) := by
      rw [List.append_assoc, List.append_assoc]
      exact (List.perm_append_left_iff l).2 List.perm_append_comm
    exact h2.trans (hp.append_right _)
  · intro x hx y hy
    rcases List.mem_cons.1 hy with rfl | hy
    · exact hlz x hx
    · have hx' : x ∈ l ++ [e] := hp2.subset (by simp [hx])
      rcases List.mem_append.1 hx' with hx' | hx'
      · exact hle x hx' y hy
      · simp only [List.mem_singleton] at hx'
        have hzm : z ∈ l ++ [e] := hp2.subset (by simp)
        rcases List.mem_append.1 hzm with hzm | hzm
        · exact (hlz x hx).trans (hle z hzm y hy)
        · -- the new point itself was dropped, so `x` is one of the old ones
          simp only [List.mem_singleton] at hzm
          subst hzm
          have := (List.perm_append_right_iff [z]).1 hp2
          exact hle x (this.subset hx) y hy

theorem bestOf_foldl (cost : V → ℝ) (es : List (Vec n × V)) : ∀ {l all : List (Vec n × V)},
    BestOf cost l all → BestOf cost (es.foldl (insert cost) l) (all ++ es) := by
  induction es with
  | nil => intro l all h; simpa using h
  | cons e es ih =>
    intro l all h
    have := ih (bestOf_insert cost h e)
    simpa using this

/-- The rounds of a shrink. -/
theorem shrink_rounds (hn : n ≠ 0) (orth : Orth n) (cost : V → ℝ) (ms : List (Vec n × V)) :
    ∀ (s : State n V), s.simplex.length = n + 1 → s.phase = .shrink → s.shrunk.length + ms.length < n →
      (ms.foldl (round orth cost) s).simplex = s.simplex ∧
      (ms.foldl (round orth cost) s).phase = .shrink ∧
      (ms.foldl (round orth cost) s).shrunk = s.shrunk ++ ms := by
  induction ms with
  | nil => intro s _ hp _; simp [hp]
  | cons e ms ih =>
    intro s hc hp hlt
    simp only [List.length_cons] at hlt
    have hs : (suggest orth s).1 = s := by
      obtain ⟨a, t, hl⟩ := head?_of_pos (l := s.simplex) (by omega)
      obtain ⟨w, hw⟩ := getLast?_of_pos (l := s.simplex.map Prod.fst) (by simp; omega)
      unfold suggest
      simp only [hw]
      rw [if_neg (by omega)]
      simp only [hp]
      rw [if_neg (by omega)]
      rcases h1 : (s.simplex.map Prod.fst).head? with _ | p₀ <;>
      rcases h2 : (s.simplex.map Prod.fst)[s.shrunk.length + 1]? with _ | p <;> rfl
    have hr : round orth cost s e = { s with shrunk := s.shrunk ++ [e], pos := e.1, vals := e.2 } := by
      unfold round
      rw [hs]
      unfold update step
      rw [if_neg (by omega)]
      simp only [hp]
      rw [if_neg (by simp; omega)]
    rw [List.foldl_cons, hr]
    obtain ⟨h1, h2, h3⟩ := ih { s with shrunk := s.shrunk ++ [e], pos := e.1, vals := e.2 } hc hp (by
      simp; omega)
    exact ⟨h1, h2, by rw [h3]; simp⟩

/-- **C109**.  A complete simplex with best point `b`, second worst point `w₂` and worst point `w`, in a
run in which the solver reflects.  The contraction fails: `v` is measured at the reflected point, `v'` at
the contracted point, and either both are not better than the worst point (inside contraction), or `v` is
between the second worst and the worst and `v'` is not better than `v` (outside contraction).  Then the
next `n` suggestions are the midpoints between the best point and each of the other points of the
simplex, in their order, whatever is measured meanwhile; after these measurements the simplex consists
of the `n + 1` best among its former points and the `n` new ones. -/
theorem shrink_suggestions (hn : n ≠ 0) {orth : Orth n} {cost : V → ℝ} {s : State n V}
    {h : List (Vec n × V)} (hr : Run orth cost s h) (hc : s.simplex.length = n + 1)
    (hp : s.phase = .startIteration ∨ s.phase = .reflect) (b w₂ w : Vec n × V)
    (hb : s.simplex.head? = some b) (hw₂ : s.simplex.dropLast.getLast? = some w₂)
    (hw : s.simplex.getLast? = some w) (q q' : Vec n) (v v' : V)
    (hfail : (cost w.2 ≤ cost v ∧ cost w.2 ≤ cost v') ∨
      (cost b.2 ≤ cost v ∧ cost w₂.2 ≤ cost v ∧ cost v < cost w.2 ∧ cost v ≤ cost v'))
    (ms : List (Vec n × V)) :
    let s₂ := round orth cost (round orth cost s (q, v)) (q', v')
    (∀ x, ms.length < n → s.simplex[ms.length + 1]? = some x →
      (suggest orth (ms.foldl (round orth cost) s₂)).2 =
        .ok fun i => (b.1 i + x.1 i) / 2) ∧
    (ms.length = n → BestOf cost (ms.foldl (round orth cost) s₂).simplex (s.simplex ++ ms) ∧
      (ms.foldl (round orth cost) s₂).simplex.length = n + 1) := by
  intro s₂
  have hi := hr.inv hn
  have hsort := (hi.complete hc).2
  obtain ⟨hbw₂, hle⟩ := order cost hsort hb hw₂ hw
  have hh₃ : (s.simplex.map fun e => cost e.2).getLast? = some (cost w.2) := by
    rw [List.getLast?_map, hw]
    rfl
  have hnone : s.shrunk = [] := hi.noShrunk (by rcases hp with hp | hp <;> rw [hp] <;> simp)
  have hs₂ : s₂.simplex = s.simplex ∧ s₂.phase = .shrink ∧ s₂.shrunk = [] := by
    have hl : s₂ = round orth cost (round orth cost s (q, v)) (q', v') := rfl
    rw [round_reflect orth cost hc hp hb hw₂ hw q v] at hl
    rcases hfail with ⟨h3, h4⟩ | ⟨h1, h2, h3, h4⟩
    · rw [if_neg (not_lt.2 (hbw₂.trans (hle.trans h3))), if_pos (hle.trans h3), if_neg (not_lt.2 h3), round,
        suggest_waiting orth (by exact hc) (.inr (.inr rfl)), update, step] at hl
      simp only [hh₃] at hl
      rw [if_neg (by omega), if_neg (not_lt.2 h4)] at hl
      rw [hl]
      exact ⟨rfl, rfl, hnone⟩
    · rw [if_neg (not_lt.2 h1), if_pos h2, if_pos h3, round, suggest_waiting orth (by exact hc)
        (.inr (.inl rfl)), update, step] at hl
      simp only at hl
      rw [if_neg (by omega), if_neg (not_lt.2 h4)] at hl
      rw [hl]
      exact ⟨rfl, rfl, hnone⟩
  obtain ⟨hx, hph, hsh⟩ := hs₂
  have hc₂ : s₂.simplex.length = n + 1 := by rw [hx, hc]
  constructor
  · intro x hlt hget
    obtain ⟨h1, h2, h3⟩ := shrink_rounds hn orth cost ms s₂ hc₂ hph (by rw [hsh]; simpa using hlt)
    generalize ms.foldl (round orth cost) s₂ = t at h1 h2 h3
    rw [hx] at h1
    rw [hsh, List.nil_append] at h3
    have hl : (t.simplex.map Prod.fst).getLast? = some w.1 := by simp [h1, hw]
    have hh : (t.simplex.map Prod.fst).head? = some b.1 := by simp [h1, hb]
    have hg : (t.simplex.map Prod.fst)[t.shrunk.length + 1]? = some x.1 := by
      rw [h1, h3, List.getElem?_map, hget]; rfl
    unfold suggest
    simp only [hl]
    rw [if_neg (by rw [h1]; omega)]
    simp only [h2, hh, hg]
    rw [if_neg (by rw [h1, h3]; omega)]
    refine congrArg Except.ok (funext fun i => ?_)
    simp only [Pi.add_apply, Pi.sub_apply, Pi.smul_apply, smul_eq_mul]
    ring
  · intro hlen
    obtain ⟨ms', e, rfl⟩ : ∃ ms' e, ms = ms' ++ [e] := by
      rcases List.eq_nil_or_concat ms with h0 | ⟨l, a, h0⟩
      · rw [h0] at hlen; simp at hlen; omega
      · exact ⟨l, a, by simpa using h0⟩
    simp only [List.length_append, List.length_singleton] at hlen
    obtain ⟨h1, h2, h3⟩ := shrink_rounds hn orth cost ms' s₂ hc₂ hph (by rw [hsh]; simp; omega)
    rw [List.foldl_append]
    generalize ms'.foldl (round orth cost) s₂ = t at h1 h2 h3
    rw [hx] at h1
    rw [hsh, List.nil_append] at h3
    have hs : (suggest orth t).1 = t := by
      obtain ⟨w', hw'⟩ := getLast?_of_pos (l := t.simplex.map Prod.fst) (by simp [h1]; omega)
      unfold suggest
      simp only [hw']
      rw [if_neg (by rw [h1]; omega)]
      simp only [h2]
      rw [if_neg (by rw [h1, h3]; omega)]
      rcases hq1 : (t.simplex.map Prod.fst).head? with _ | p₀ <;>
      rcases hq2 : (t.simplex.map Prod.fst)[t.shrunk.length + 1]? with _ | p <;> rfl
    have hr : (round orth cost t e).simplex = (ms' ++ [e]).foldl (insert cost) s.simplex := by
      unfold round
      rw [hs]
      unfold update step
      rw [if_neg (by rw [h1]; omega)]
      simp only [h2, h3]
      rw [if_pos (by simp; omega)]
      simp only [h1]
    rw [List.foldl_cons, List.foldl_nil, hr]
    refine ⟨bestOf_foldl cost _ ⟨[], by simp, by simp⟩, ?_⟩
    clear hr
    have : ∀ (es l : List (Vec n × V)), (es.foldl (insert cost) l).length = l.length := by
      intro es
      induction es with
      | nil => intro l; rfl
      | cons e es ih => intro l; rw [List.foldl_cons, ih, insert_length]
    rw [this, hc]

/-- One gate: values 3 at the position 0 and 2 at the position 1. -/
noncomputable def started (orth : Orth 1) : State 1 ℝ :=
  calls orth (fun v : ℝ => v * v) [.suggest, .update (fun _ => 1) 2] (fromScratch (fun _ => 1) (fun _ => 0) 3)

/-- The hypotheses of the theorems above are met by a run; an inside contraction fails in it (4 at the
reflected, 3 at the contracted point). -/
example (orth : Orth 1) : (∃ h, Run orth (fun v : ℝ => v * v) (started orth) h) ∧
    (started orth).simplex = [(fun _ => 1, 2), (fun _ => 0, 3)] ∧ (started orth).phase = .startIteration ∧
    (started orth).simplex.length = 1 + 1 ∧ (3 : ℝ) * 3 ≤ 4 * 4 ∧ (3 : ℝ) * 3 ≤ 3 * 3 := by
  have h1 : (suggest orth (fromScratch (fun _ => 1) (fun _ => 0) (3 : ℝ))).1 =
      fromScratch (fun _ => 1) (fun _ => 0) 3 := by
    rcases suggest_state orth (fromScratch (fun _ => 1) (fun _ => 0) (3 : ℝ)) with h | ⟨-, h⟩ | ⟨h, -⟩
    · exact h
    · exact h
    · exact absurd (by simp [fromScratch]) h
  have hsort : sortByCost (n := 1) (fun v : ℝ => v * v) [(fun _ => 0, 3), (fun _ => 1, 2)] =
      [(fun _ => 1, 2), (fun _ => 0, 3)] := by
    unfold sortByCost
    simp [List.mergeSort, List.MergeSort.Internal.splitInTwo]
    norm_num [List.merge]
  have hs : (started orth).simplex = [(fun _ => 1, 2), (fun _ => 0, 3)] ∧
      (started orth).phase = .startIteration := by
    unfold started
    simp only [calls, h1]
    simp [update, step, fromScratch, hsort]
  refine ⟨(Run.start _ _ _).calls _, hs.1, hs.2, ?_, by norm_num, by norm_num⟩
  rw [hs.1]; rfl

end Qtune.NelderMead
