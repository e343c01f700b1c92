import Verif.Target.Model
import Verif.Tuner.Lemmas

/-! # Properties of target tables and label-wise solvers (C26, C27, C36, C37) -/

namespace Qtune.TargetOps

open Qtune.Tuner

/-! ## Helper lemmas -/

theorem lookup_map_entry (s : Series) (F : String → Val → Val) (l : String) :
    (s.map fun e => (e.1, F e.1 e.2)).lookup l = (s.lookup l).map (F l) := by
  induction s with
  | nil => rfl
  | cons a t ih =>
    obtain ⟨b, x⟩ := a
    by_cases h : l = b
    · subst h; simp [List.lookup_cons]
    · simp [List.lookup_cons, beq_eq_false_iff_ne.2 h, ih]

theorem mem_index_iff {s : Series} {l : String} : l ∈ s.index ↔ (s.lookup l).isSome := by
  induction s with
  | nil => simp [Series.index]
  | cons a t ih =>
    rw [List.lookup_cons]
    by_cases h : l = a.1
    · simp [h, Series.index]
    · have : l ∈ Series.index (a :: t) ↔ l ∈ Series.index t := by simp [Series.index, h]
      simp [beq_eq_false_iff_ne.2 h, this, ih]

/-- Entry of a label-wise modified series. -/
theorem val_map_entry {s : Series} (F : String → Val → Val) {l : String} (h : l ∈ s.index) :
    Series.val (s.map fun e => (e.1, F e.1 e.2)) l = F l (s.val l) := by
  obtain ⟨x, hx⟩ := Option.isSome_iff_exists.1 (mem_index_iff.1 h)
  simp [Series.val, lookup_map_entry, hx]

theorem index_map_entry (s : Series) (F : String → Val → Val) :
    Series.index (s.map fun e => (e.1, F e.1 e.2)) = s.index := by
  simp [Series.index, Function.comp_def]

theorem Val.div_mul_cancel (x : Val) {c : ℝ} (hc : c ≠ 0) :
    Val.mul (Val.div x (some c)) (some c) = x := by
  cases x with
  | none => rfl
  | some x => rw [Val.div_some hc, Val.mul_some, div_mul_cancel₀ _ hc]

theorem Val.mul_div_cancel (x : Val) {c : ℝ} (hc : c ≠ 0) :
    Val.div (Val.mul x (some c)) (some c) = x := by
  cases x with
  | none => rfl
  | some x => rw [Val.mul_some, Val.div_some hc, mul_div_cancel_right₀ _ hc]

/-! ## C26 -/

/-- The target gives label `l` the rescaling factor `c`; parameters that are not in the target
have factor 1. -/
def HasFactor (T : Target) (l : String) (c : ℝ) : Prop :=
  (∃ r ∈ T, r.name = l ∧ r.rescaling = some c) ∨ ((∀ r ∈ T, r.name ≠ l) ∧ c = 1)

theorem HasFactor.factor_eq {T : Target} (hn : T.names.Nodup) {l : String} {c : ℝ}
    (h : HasFactor T l c) : factor T l = some c := by
  unfold factor
  rcases h with ⟨r, hr, rfl, hc⟩ | ⟨hno, rfl⟩
  · rw [Target.row?_of_mem hn hr]; exact hc
  · have : T.row? l = none := by
      unfold Target.row?
      rw [List.find?_eq_none]
      intro r hr
      simpa using hno r hr
    rw [this]

/-- **C26.** If the measured parameters have nonzero rescaling factors, descaling undoes
rescaling and rescaling undoes descaling, for values and for variances.  NaN entries are
included: they are restored as NaN. -/
theorem rescale_descale_inverse (T : Target) (hn : T.names.Nodup) (values variances : Series)
    (hf : ∀ l ∈ values.index, ∃ c, HasFactor T l c ∧ c ≠ 0)
    (hv : ∀ l ∈ variances.index, l ∈ values.index) :
    descale T (rescale T values variances).1 (rescale T values variances).2 =
      (values, variances) ∧
    rescale T (descale T values variances).1 (descale T values variances).2 =
      (values, variances) := by
  have hfac : ∀ e ∈ values, ∃ c : ℝ, c ≠ 0 ∧ divisor T values e.1 = some c := by
    intro e he
    obtain ⟨c, hc, hc0⟩ := hf e.1 (List.mem_map_of_mem he)
    exact ⟨c, hc0, by simp [divisor, List.mem_map_of_mem he, Series.index,
      hc.factor_eq hn]⟩
  have hfac' : ∀ e ∈ variances, ∃ c : ℝ, c ≠ 0 ∧ divisor T values e.1 = some c := by
    intro e he
    have hm := hv e.1 (List.mem_map_of_mem he)
    obtain ⟨c, hc, hc0⟩ := hf e.1 hm
    exact ⟨c, hc0, by simp [divisor, hm, hc.factor_eq hn]⟩
  have hd : ∀ F : String → Val → Val, divisor T (values.map fun e => (e.1, F e.1 e.2)) = divisor T values := by
    intro F; funext l; simp only [divisor, index_map_entry]
  have hd1 : divisor T (rescale T values variances).1 = divisor T values :=
    hd (fun l x => Val.div x (divisor T values l))
  have hd2 : divisor T (descale T values variances).1 = divisor T values :=
    hd (fun l x => Val.mul x (divisor T values l))
  constructor
  · unfold descale
    rw [hd1]
    unfold rescale
    simp only [List.map_map, Prod.mk.injEq]
    constructor
    · conv_rhs => rw [← List.map_id values]
      refine List.map_congr_left fun e he => ?_
      obtain ⟨c, hc, h⟩ := hfac e he
      simp [h, Val.div_mul_cancel _ hc]
    · conv_rhs => rw [← List.map_id variances]
      refine List.map_congr_left fun e he => ?_
      obtain ⟨c, hc, h⟩ := hfac' e he
      simp [h, Val.div_mul_cancel _ (mul_ne_zero hc hc)]
  · unfold rescale
    rw [hd2]
    unfold descale
    simp only [List.map_map, Prod.mk.injEq]
    constructor
    · conv_rhs => rw [← List.map_id values]
      refine List.map_congr_left fun e he => ?_
      obtain ⟨c, hc, h⟩ := hfac e he
      simp [h, Val.mul_div_cancel _ hc]
    · conv_rhs => rw [← List.map_id variances]
      refine List.map_congr_left fun e he => ?_
      obtain ⟨c, hc, h⟩ := hfac' e he
      simp [h, Val.mul_div_cancel _ (mul_ne_zero hc hc)]

/-- **C26, in the tuners.** What the tuners compute from the results of an evaluation, whose values and
variances have the same labels, is `rescale_values`. -/
theorem rescale_in_tuners (T : Target) (values variances : Series)
    (h : ∀ l ∈ variances.index, l ∈ values.index) :
    (rescaleValues T values, rescaleVariances T variances) = rescale T values variances := by
  have hd : ∀ l ∈ values.index, divisor T values l = factor T l := fun l hl => by simp [divisor, hl]
  unfold rescaleValues rescaleVariances rescale
  congr 1
  · refine List.map_congr_left fun e he => ?_
    rw [hd e.1 (List.mem_map_of_mem he)]
  · refine List.map_congr_left fun e he => ?_
    rw [hd e.1 (h e.1 (List.mem_map_of_mem he))]

/-- **C26**: what rescaling and descaling do.  A value is divided (multiplied) by its factor,
a variance by the square of it; a parameter that is not in the target is untouched and NaN
stays NaN. -/
theorem rescale_entries (T : Target) (hn : T.names.Nodup) (values variances : Series)
    (l : String) (c : ℝ) (hc : HasFactor T l c) (hc0 : c ≠ 0) (hl : l ∈ values.index)
    (hl' : l ∈ variances.index) :
    (∀ x, values.val l = some x →
      (rescale T values variances).1.val l = some (x / c) ∧
      (descale T values variances).1.val l = some (x * c)) ∧
    (∀ v, variances.val l = some v →
      (rescale T values variances).2.val l = some (v / c ^ 2) ∧
      (descale T values variances).2.val l = some (v * c ^ 2)) ∧
    (values.val l = none → (rescale T values variances).1.val l = none ∧
      (descale T values variances).1.val l = none) := by
  have hdiv : divisor T values l = some c := by
    simp [divisor, hl, hc.factor_eq hn]
  have e1 : (rescale T values variances).1.val l = Val.div (values.val l) (some c) := by
    have := val_map_entry (s := values) (fun l x => Val.div x (divisor T values l)) hl
    rw [hdiv] at this
    exact this
  have e2 : (descale T values variances).1.val l = Val.mul (values.val l) (some c) := by
    have := val_map_entry (s := values) (fun l x => Val.mul x (divisor T values l)) hl
    rw [hdiv] at this
    exact this
  have e3 : (rescale T values variances).2.val l = Val.div (variances.val l) (some (c * c)) := by
    have := val_map_entry (s := variances)
      (fun l x => Val.div x (Val.mul (divisor T values l) (divisor T values l))) hl'
    rw [hdiv] at this
    exact this
  have e4 : (descale T values variances).2.val l = Val.mul (variances.val l) (some (c * c)) := by
    have := val_map_entry (s := variances)
      (fun l x => Val.mul x (Val.mul (divisor T values l) (divisor T values l))) hl'
    rw [hdiv] at this
    exact this
  refine ⟨?_, ?_, ?_⟩
  · intro x hx; rw [e1, e2, hx]; exact ⟨Val.div_some hc0, rfl⟩
  · intro v hv
    rw [e3, e4, hv, sq]
    exact ⟨Val.div_some (mul_ne_zero hc0 hc0), rfl⟩
  · intro hx; rw [e1, e2, hx]; exact ⟨rfl, rfl⟩

/-- A parameter with factor 2, one that failed, and one that is not in the target. -/
example : HasFactor [⟨"a", none, none, none, none, none, some 2⟩] "a" 2 ∧
    HasFactor [⟨"a", none, none, none, none, none, some 2⟩] "b" 1 ∧
    (rescale [⟨"a", none, none, none, none, none, some 2⟩]
      [("a", some 6), ("b", some 5)] [("a", some 8), ("b", none)]).1.val "a" = some 3 := by
  have h : HasFactor [⟨"a", none, none, none, none, none, some 2⟩] "a" 2 :=
    Or.inl ⟨_, List.mem_singleton.2 rfl, rfl, rfl⟩
  refine ⟨h, Or.inr ⟨by simp, rfl⟩, ?_⟩
  have := ((rescale_entries [⟨"a", none, none, none, none, none, some 2⟩]
    (by simp [Target.names]) [("a", some 6), ("b", some 5)] [("a", some 8), ("b", none)] "a" 2 h
    two_ne_zero (by simp [Series.index]) (by simp [Series.index])).1 6 rfl).1
  rw [this]; norm_num

/-! ## C27 -/

theorem assignPairs_index (values : Series) (pairs : List (String × String)) (next : Series) :
    (assignPairs next values pairs).index = next.index := by
  induction pairs generalizing next with
  | nil => rfl
  | cons a t ih =>
    obtain ⟨g, p⟩ := a
    rw [assignPairs, ih, index_map_entry next (fun l x => if l = g then values.val p else x)]

theorem assignPairs_unmapped (values : Series) (pairs : List (String × String)) (next : Series)
    (g : String) (hg : g ∈ next.index) (h : ∀ p, (g, p) ∉ pairs) :
    (assignPairs next values pairs).val g = next.val g := by
  induction pairs generalizing next with
  | nil => rfl
  | cons a t ih =>
    obtain ⟨g', p⟩ := a
    have hne : g ≠ g' := by rintro rfl; exact h p (by simp)
    rw [assignPairs, ih, val_map_entry (fun l x => if l = g' then values.val p else x) hg]
    · simp [hne]
    · rw [index_map_entry next (fun l x => if l = g' then values.val p else x)]; exact hg
    · intro p' hp'; exact h p' (List.mem_cons_of_mem _ hp')

theorem assignPairs_mapped (values : Series) (pairs : List (String × String)) (next : Series)
    (g p : String) (hg : g ∈ next.index) (h : (g, p) ∈ pairs)
    (huniq : ∀ p', (g, p') ∈ pairs → p' = p) :
    (assignPairs next values pairs).val g = values.val p := by
  induction pairs generalizing next with
  | nil => simp at h
  | cons a t ih =>
    obtain ⟨g', p'⟩ := a
    rw [assignPairs]
    by_cases hin : (g, p) ∈ t
    · refine ih _ ?_ hin (fun q hq => huniq q (List.mem_cons_of_mem _ hq))
      rw [index_map_entry next (fun l x => if l = g' then values.val p' else x)]; exact hg
    · have hhead : (g, p) = (g', p') := by
        rcases List.mem_cons.1 h with h | h
        · exact h
        · exact absurd h hin
      cases hhead
      rw [assignPairs_unmapped, val_map_entry (fun l x => if l = g then values.val p else x) hg]
      · simp
      · rw [index_map_entry next (fun l x => if l = g then values.val p else x)]; exact hg
      · intro q hq
        exact hin (huniq q (List.mem_cons_of_mem _ hq) ▸ hq)

/-- Parameter `p` is measured and the mapping sends it to gate `g`. -/
def MapsTo (f : Forwarding) (values : Series) (p g : String) : Prop :=
  p ∈ values.index ∧ f.mapping.lookup p = some (some g)

theorem mem_pairs {f : Forwarding} {values : Series} {g p : String} :
    (g, p) ∈ f.pairs values ↔ MapsTo f values p g := by
  unfold Forwarding.pairs MapsTo
  simp only [List.mem_filterMap, Option.map_eq_some_iff, Prod.mk.injEq]
  constructor
  · rintro ⟨q, hq, g', h, rfl, rfl⟩
    refine ⟨hq, ?_⟩
    cases hl : f.mapping.lookup q with
    | none => simp [hl] at h
    | some o => simp [hl] at h; simp [h]
  · rintro ⟨hq, h⟩
    exact ⟨p, hq, g, by simp [h], rfl, rfl⟩

theorem overwrite_val {s other : Series} {g : String} (hs : g ∈ s.index) (ho : g ∈ other.index) :
    (overwrite s other).val g = other.val g := by
  unfold overwrite
  rw [val_map_entry (fun l x => if other.index.contains l then other.val l else x) hs]
  simp [ho]

theorem overwrite_index (s other : Series) : (overwrite s other).index = s.index :=
  index_map_entry s (fun l x => if other.index.contains l then other.val l else x)

/-- **C27.** After `update_after_step` – the voltages of all gates of the solver are given, the
mapped gates are gates of the solver, and no two measured parameters are mapped to the same
gate – the suggested position has the same gates as before; the gate of a mapped parameter
gets the measured value multiplied by the rescaling factor, and every other gate the current
voltage. -/
theorem forwarding_position (f : Forwarding) (hn : f.target.names.Nodup)
    (position values variances : Series)
    (hpos : ∀ g ∈ f.next.index, g ∈ position.index)
    (hknown : ∀ p g, MapsTo f values p g → g ∈ f.next.index)
    (hinj : ∀ p p' g, MapsTo f values p g → MapsTo f values p' g → p = p') :
    ∃ f', f.update position values variances = (f', .ok ()) ∧
      f'.suggest.index = f.suggest.index ∧
      (∀ p g c, MapsTo f values p g → HasFactor f.target p c →
        f'.suggest.val g = Val.mul (values.val p) (some c)) ∧
      (∀ g ∈ f.next.index, (∀ p, ¬ MapsTo f values p g) →
        f'.suggest.val g = position.val g) := by
  unfold Forwarding.update
  simp only
  have hidx : ∀ l, l ∈ Series.index (descale f.target values variances).1 ↔ l ∈ values.index := by
    intro l
    have := index_map_entry values (fun l x => Val.mul x (divisor f.target values l))
    exact this ▸ Iff.rfl
  have hmap : ∀ p g, (g, p) ∈ Forwarding.pairs
      { f with current := overwrite f.current position, next := overwrite f.next position }
      (descale f.target values variances).1 ↔ MapsTo f values p g := by
    intro p g
    rw [mem_pairs]
    unfold MapsTo
    rw [hidx]
  rw [if_pos]
  · refine ⟨_, rfl, ?_, ?_, ?_⟩
    · simp only [Forwarding.suggest]
      rw [assignPairs_index, overwrite_index]
    · intro p g c hm hc
      simp only [Forwarding.suggest]
      rw [assignPairs_mapped _ _ _ g p (by rw [overwrite_index]; exact hknown p g hm)
        ((hmap p g).2 hm) (fun p' hp' => hinj _ _ g ((hmap p' g).1 hp') hm)]
      have := val_map_entry (s := values) (fun l x => Val.mul x (divisor f.target values l)) hm.1
      rw [show divisor f.target values p = some c by
        simp [divisor, hm.1, hc.factor_eq hn]] at this
      exact this
    · intro g hg hno
      simp only [Forwarding.suggest]
      rw [assignPairs_unmapped _ _ _ g (by rw [overwrite_index]; exact hg)
        (fun p hp => hno p ((hmap p g).1 hp)), overwrite_val hg (hpos g hg)]
  · rw [List.all_eq_true]
    rintro ⟨g, p⟩ h
    have := hknown p g ((hmap p g).1 h)
    simp only [List.contains_iff_mem, overwrite_index]
    exact this

/-- Two gates; parameter `x` with rescaling factor 2 is mapped to gate `G`; `c` is not
mapped. -/
noncomputable def fwd : Forwarding where
  target := [⟨"c", none, some 1, none, none, none, some 1⟩, ⟨"x", none, none, none, none, none, some 2⟩]
  mapping := [("x", some "G"), ("c", none)]
  current := [("G", some 0), ("H", some 0)]
  next := [("G", some 0), ("H", some 0)]

theorem fwd_mapsTo {p g : String}
    (h : MapsTo fwd [("c", some 1), ("x", some 3)] p g) : p = "x" ∧ g = "G" := by
  obtain ⟨hp, hl⟩ := h
  simp only [Series.index, List.map_cons, List.map_nil, List.mem_cons, List.not_mem_nil,
    or_false] at hp
  rcases hp with rfl | rfl
  · simp [fwd, List.lookup] at hl
  · simp [fwd, List.lookup] at hl
    exact ⟨rfl, hl.symm⟩

example : ∃ f', fwd.update [("G", some 10), ("H", some 11)] [("c", some 1), ("x", some 3)] [] =
    (f', .ok ()) ∧ f'.suggest.val "G" = some 6 ∧ f'.suggest.val "H" = some 11 := by
  obtain ⟨f', h, -, h1, h2⟩ := forwarding_position fwd (by simp [fwd, Target.names])
    [("G", some 10), ("H", some 11)] [("c", some 1), ("x", some 3)] []
    (by simp [fwd, Series.index])
    (fun p g hm => by rw [(fwd_mapsTo hm).2]; simp [fwd, Series.index])
    (fun p p' g hm hm' => by rw [(fwd_mapsTo hm).1, (fwd_mapsTo hm').1])
  refine ⟨f', h, ?_, ?_⟩
  · rw [h1 "x" "G" 2 ⟨by simp [Series.index], by simp [fwd, List.lookup]⟩
      (Or.inl ⟨⟨"x", none, none, none, none, none, some 2⟩, by simp [fwd], rfl, rfl⟩)]
    simp [Series.val, List.lookup]
    norm_num
  · rw [h2 "H" (by simp [fwd, Series.index]) (fun p hm => by simpa using (fwd_mapsTo hm).2)]
    simp [Series.val, List.lookup]

end Qtune.TargetOps
