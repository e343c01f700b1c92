import Verif.Matlab.TransferProps
import Verif.Matlab.NestedSpec

/-!
# C166: values inside each other arrive in MATLAB
-/

namespace Qtune.Matlab

/-! ## Lemmas -/

theorem convertAll_spec {α β : Type} {f : α → Except PyErr β} : ∀ {l : List α} {k : List β},
    convertAll f l = .ok k → l.length = k.length ∧ ∀ (i : Nat) x y, l[i]? = some x → k[i]? = some y → f x = .ok y
  | [], k, h => by
    cases h
    exact ⟨rfl, fun i x y hx => by simp at hx⟩
  | a :: l, k, h => by
    unfold convertAll at h
    split at h
    · cases h
    · rename_i b hb
      split at h
      · cases h
      · rename_i bs hbs
        cases h
        obtain ⟨h1, h2⟩ := convertAll_spec hbs
        refine ⟨by simp [h1], fun i x y hx hy => ?_⟩
        cases i with
        | zero => simp at hx hy; subst hx; subst hy; exact hb
        | succ i => exact h2 i x y (by simpa using hx) (by simpa using hy)

theorem convertAll_ok {α β : Type} {f : α → Except PyErr β} : ∀ {l : List α},
    (∀ x ∈ l, ∃ y, f x = .ok y) → ∃ k, convertAll f l = .ok k
  | [], _ => ⟨[], rfl⟩
  | a :: l, h => by
    obtain ⟨y, hy⟩ := h a (by simp)
    obtain ⟨k, hk⟩ := convertAll_ok (l := l) fun x hx => h x (by simp [hx])
    exact ⟨y :: k, by simp [convertAll, hy, hk]⟩

theorem convertAll_mono {α β : Type} {f g : α → Except PyErr β} (hfg : ∀ x y, f x = .ok y → g x = .ok y) :
    ∀ {l : List α} {k : List β}, convertAll f l = .ok k → convertAll g l = .ok k
  | [], k, h => h
  | a :: l, k, h => by
    unfold convertAll at h
    split at h
    · cases h
    · rename_i b hb
      split at h
      · cases h
      · rename_i bs hbs
        cases h
        simp [convertAll, hfg _ _ hb, convertAll_mono hfg hbs]

theorem convertItem_ok {α β : Type} {f : α → Except PyErr β} {p : String × α} {q : String × β} :
    convertItem f p = .ok q ↔ f p.2 = .ok q.2 ∧ p.1 = q.1 := by
  unfold convertItem
  obtain ⟨a, b⟩ := q
  split
  · rename_i e he; simp [he]
  · rename_i y hy
    simp only [hy, Except.ok.injEq, Prod.mk.injEq]
    tauto

theorem packed_ok {β γ : Type} {pack : List β → γ} {r : Except PyErr (List β)} {m : γ} :
    packed pack r = .ok m ↔ ∃ k, r = .ok k ∧ m = pack k := by
  cases r with
  | error e => simp [packed]
  | ok k => simp [packed, eq_comm]

theorem toMatlab_succ : ∀ {d : Nat} {o : PyObj} {m : MObj}, toMatlab d o = .ok m → toMatlab (d + 1) o = .ok m
  | 0, o, m, h => by simp [toMatlab] at h
  | d + 1, o, m, h => by
    have ih : ∀ x y, toMatlab d x = .ok y → toMatlab (d + 1) x = .ok y := fun x y => toMatlab_succ
    cases o with
    | float x => exact h
    | int x => exact h
    | series rows => exact ih _ _ h
    | array a => exact h
    | scalar x => exact h
    | tuple l => exact h
    | other => exact h
    | list l =>
      unfold toMatlab at h ⊢
      obtain ⟨k, hk, rfl⟩ := packed_ok.1 h
      exact packed_ok.2 ⟨k, convertAll_mono ih hk, rfl⟩
    | set l =>
      unfold toMatlab at h ⊢
      obtain ⟨k, hk, rfl⟩ := packed_ok.1 h
      exact packed_ok.2 ⟨k, convertAll_mono ih hk, rfl⟩
    | dict l =>
      unfold toMatlab at h ⊢
      obtain ⟨k, hk, rfl⟩ := packed_ok.1 h
      refine packed_ok.2 ⟨k, convertAll_mono (fun p q hpq => ?_) hk, rfl⟩
      rw [convertItem_ok] at hpq ⊢
      exact ⟨ih _ _ hpq.1, hpq.2⟩

theorem toMatlab_mono {d d' : Nat} {o : PyObj} {m : MObj} (h : toMatlab d o = .ok m) (hd : d ≤ d') :
    toMatlab d' o = .ok m := by
  induction hd with
  | refl => exact h
  | step _ ih => exact toMatlab_succ ih

/-- Without repeated labels `dict(obj)` is the Series. -/
theorem dictOf_nodup {rows : List (String × PyObj)} (h : (rows.map Prod.fst).Nodup) : PyObj.dictOf rows = rows := by
  unfold PyObj.dictOf
  rw [h.dedup, List.map_map]
  refine (List.map_congr_left fun p hp => ?_).trans (List.map_id _)
  have : rows.filter (fun q => q.1 = p.1) = [p] := by
    induction rows with
    | nil => simp at hp
    | cons a l ih =>
      rw [List.map_cons, List.nodup_cons] at h
      rcases List.mem_cons.1 hp with rfl | hp'
      · rw [List.filter_cons_of_pos (by simp)]
        congr 1
        rw [List.filter_eq_nil_iff]
        intro q hq
        have : q.1 ≠ p.1 := fun e => h.1 (e ▸ List.mem_map_of_mem hq)
        simpa using this
      · have : a.1 ≠ p.1 := fun e => h.1 (e ▸ List.mem_map_of_mem hp')
        rw [List.filter_cons_of_neg (by simpa using this)]
        exact ih h.2 hp'
  simp only [Function.comp_apply, PyObj.ofLabel, this, id]

/-- A Series with one label several times is its own value at this label. -/
theorem dictOf_constant {rows : List (String × PyObj)} {l : String} (hl : ∀ p ∈ rows, p.1 = l) (h2 : 2 ≤ rows.length) :
    PyObj.dictOf rows = [(l, .series rows)] := by
  have hm : rows.map Prod.fst = List.replicate rows.length l := by
    rw [List.eq_replicate_iff]
    refine ⟨by simp, fun b hb => ?_⟩
    obtain ⟨p, hp, rfl⟩ := List.mem_map.1 hb
    exact hl p hp
  have hd : (List.replicate rows.length l).dedup = [l] := by
    rw [List.replicate_dedup (by omega)]
  have hf : rows.filter (fun q => q.1 = l) = rows := List.filter_eq_self.2 fun p hp => by simp [hl p hp]
  unfold PyObj.dictOf
  rw [hm, hd]
  simp only [List.map_cons, List.map_nil, PyObj.ofLabel, hf]
  match rows, h2 with
  | a :: b :: t, _ => rfl

/-- The conversion of a Series with one label several times comes back to the same Series. -/
theorem constant_recursion {rows : List (String × PyObj)} {l : String} (hl : ∀ p ∈ rows, p.1 = l)
    (h2 : 2 ≤ rows.length) : ∀ d, toMatlab d (.series rows) = .error .recursionError
  | 0 => rfl
  | 1 => rfl
  | d + 2 => by
    show toMatlab (d + 1) (.dict (PyObj.dictOf rows)) = _
    rw [dictOf_constant hl h2]
    simp only [toMatlab, convertAll, convertItem, constant_recursion hl h2 d, packed]

theorem ofLabel_repeated {rows : List (String × PyObj)} (h : ¬ (rows.map Prod.fst).Nodup) :
    ∃ l ps, l ∈ rows.map Prod.fst ∧ PyObj.ofLabel rows l = .series ps ∧ (∀ p ∈ ps, p.1 = l) ∧ 2 ≤ ps.length := by
  obtain ⟨l, hl⟩ : ∃ l, 2 ≤ (rows.map Prod.fst).count l := by
    by_contra hc
    push Not at hc
    exact h (List.nodup_iff_count_le_one.2 fun a => by have := hc a; omega)
  have hlen : 2 ≤ (rows.filter fun p => p.1 = l).length := by
    have : (rows.map Prod.fst).count l = (rows.filter fun p => p.1 = l).length := by
      rw [List.count_eq_length_filter, List.filter_map, List.length_map]
      congr 1
    omega
  refine ⟨l, rows.filter fun p => p.1 = l, ?_, ?_, fun p hp => by simpa using (List.mem_filter.1 hp).2, hlen⟩
  · exact List.count_pos_iff.1 (by omega)
  · unfold PyObj.ofLabel
    generalize rows.filter (fun p => p.1 = l) = ps at hlen ⊢
    match ps, hlen with
    | a :: b :: t, _ => rfl

theorem convertAll_mem_ok {α β : Type} {f : α → Except PyErr β} : ∀ {l : List α} {k : List β},
    convertAll f l = .ok k → ∀ x ∈ l, ∃ y ∈ k, f x = .ok y
  | [], _, _, x, hx => by simp at hx
  | a :: l, k, h, x, hx => by
    unfold convertAll at h
    split at h
    · cases h
    · rename_i b hb
      split at h
      · cases h
      · rename_i bs hbs
        cases h
        rcases List.mem_cons.1 hx with rfl | hx
        · exact ⟨b, by simp, hb⟩
        · obtain ⟨y, hy, hxy⟩ := convertAll_mem_ok hbs x hx
          exact ⟨y, by simp [hy], hxy⟩

/-- A conversion that succeeds, where the values inside are plain whenever they arrive as they are. -/
theorem members_plain {d : Nat} (ih : ∀ o m, toMatlab d o = .ok m → Same o m → Plain o) {l : List PyObj} {k k' : List MObj}
    (hk : convertAll (toMatlab d) l = .ok k) (hs : ∀ (i : Nat) x y, l[i]? = some x → k'[i]? = some y → Same x y) (hkk : k = k') :
    ∀ x ∈ l, Plain x := by
  subst hkk
  intro x hx
  obtain ⟨h1, h2⟩ := convertAll_spec hk
  obtain ⟨i, hi, rfl⟩ := List.getElem_of_mem hx
  have hi' : i < k.length := h1 ▸ hi
  exact ih _ _ (h2 i _ _ (List.getElem?_eq_getElem hi) (List.getElem?_eq_getElem hi'))
    (hs i _ _ (List.getElem?_eq_getElem hi) (List.getElem?_eq_getElem hi'))

theorem items_plain {d : Nat} (ih : ∀ o m, toMatlab d o = .ok m → Same o m → Plain o) {l : List (String × PyObj)}
    {k k' : List (String × MObj)} (hk : convertAll (convertItem (toMatlab d)) l = .ok k)
    (hs : ∀ (i : Nat) x y, l[i]? = some x → k'[i]? = some y → Same x.2 y.2) (hkk : k = k') : ∀ x ∈ l, Plain x.2 := by
  subst hkk
  intro x hx
  obtain ⟨h1, h2⟩ := convertAll_spec hk
  obtain ⟨i, hi, rfl⟩ := List.getElem_of_mem hx
  have hi' : i < k.length := h1 ▸ hi
  exact ih _ _ (convertItem_ok.1 (h2 i _ _ (List.getElem?_eq_getElem hi) (List.getElem?_eq_getElem hi'))).1
    (hs i _ _ (List.getElem?_eq_getElem hi) (List.getElem?_eq_getElem hi'))

theorem array_transferable {a : NpArray ℝ} {m : MArray ℝ} (h : toMatlabArray a = .ok m) : Transferable a.dtype := by
  by_contra hn
  rw [(transfer_refused a).1 hn] at h
  cases h

/-- A Series with a label twice is not converted. -/
theorem repeated_fails {rows : List (String × PyObj)} (hn : ¬ (rows.map Prod.fst).Nodup) (d : Nat) (m : MObj) :
    toMatlab d (.series rows) ≠ .ok m := by
  intro h
  obtain ⟨l, ps, hl, hat, hps, h2⟩ := ofLabel_repeated hn
  match d, h with
  | 1, h => simp [toMatlab] at h
  | d + 2, h =>
    obtain ⟨k, hk, -⟩ := packed_ok.1
      (show packed MObj.dict (convertAll (convertItem (toMatlab d)) (PyObj.dictOf rows)) = .ok m from h)
    have hmem : (l, PyObj.series ps) ∈ PyObj.dictOf rows := by
      unfold PyObj.dictOf
      exact List.mem_map.2 ⟨l, List.mem_dedup.2 hl, by rw [hat]⟩
    obtain ⟨y, -, hy⟩ := convertAll_mem_ok hk _ hmem
    have := (convertItem_ok.1 hy).1
    rw [constant_recursion hps h2] at this
    cases this

/-- A call that returns a value which is the same was given a plain value. -/
theorem plain_of_same : ∀ (d : Nat) (o : PyObj) (m : MObj), toMatlab d o = .ok m → Same o m → Plain o
  | 0, o, m, h, _ => by simp [toMatlab] at h
  | d + 1, o, m, h, hs => by
    have ih := plain_of_same d
    cases o with
    | float x => exact .float x
    | int x => exact .int x
    | other => simp [toMatlab] at h
    | tuple l =>
      simp [toMatlab] at h
      subst h
      cases hs
    | scalar x =>
      cases hs
      exact .scalar _
    | array a =>
      cases hs with
      | array hsa =>
        have ht : Transferable a.dtype := by
          unfold toMatlab at h
          split at h
          · cases h
          · rename_i m' hm'
            exact array_transferable hm'
        rcases hsa with ⟨c, rows, hr, ha, -, -⟩ | ⟨v, ha, -, -⟩
        · rw [ha]; exact .table ht hr
        · rw [ha]; exact .vector ht
    | list l =>
      obtain ⟨k, hk, rfl⟩ := packed_ok.1 (show packed MObj.list (convertAll (toMatlab d) l) = .ok m from h)
      cases hs with
      | list _ h2 => exact .list (members_plain ih hk h2 rfl)
    | set l =>
      obtain ⟨k, hk, rfl⟩ := packed_ok.1 (show packed MObj.set (convertAll (toMatlab d) l) = .ok m from h)
      cases hs with
      | set _ h2 => exact .set (members_plain ih hk h2 rfl)
    | dict l =>
      obtain ⟨k, hk, rfl⟩ :=
        packed_ok.1 (show packed MObj.dict (convertAll (convertItem (toMatlab d)) l) = .ok m from h)
      cases hs with
      | dict _ h2 => exact .dict (items_plain ih hk h2 rfl)
    | series rows =>
      have hd : toMatlab d (.dict (PyObj.dictOf rows)) = .ok m := h
      by_cases hn : (rows.map Prod.fst).Nodup
      · rw [dictOf_nodup hn] at hd
        cases hs with
        | series h1 h2 =>
          have := ih _ _ hd (.dict h1 h2)
          cases this with
          | dict hp => exact .series hn hp
      · exact absurd h (repeated_fails hn (d + 1) m)

/-- One depth for all members. -/
theorem common_depth {l : List PyObj} (h : ∀ x ∈ l, ∃ d m, toMatlab d x = .ok m ∧ Same x m) :
    ∃ d, ∀ x ∈ l, ∃ m, toMatlab d x = .ok m ∧ Same x m := by
  induction l with
  | nil => exact ⟨0, by simp⟩
  | cons a l ih =>
    obtain ⟨d1, h1⟩ := ih fun x hx => h x (by simp [hx])
    obtain ⟨d2, m, hm, hs⟩ := h a (by simp)
    refine ⟨max d1 d2, fun x hx => ?_⟩
    rcases List.mem_cons.1 hx with rfl | hx
    · exact ⟨m, toMatlab_mono hm (le_max_right _ _), hs⟩
    · obtain ⟨m', hm', hs'⟩ := h1 x hx
      exact ⟨m', toMatlab_mono hm' (le_max_left _ _), hs'⟩

theorem list_arrives {l : List PyObj} (h : ∀ x ∈ l, ∃ d m, toMatlab d x = .ok m ∧ Same x m) :
    ∃ d k, convertAll (toMatlab d) l = .ok k ∧ l.length = k.length ∧
      ∀ (i : Nat) x y, l[i]? = some x → k[i]? = some y → Same x y := by
  obtain ⟨d, hd⟩ := common_depth h
  obtain ⟨k, hk⟩ := convertAll_ok (f := toMatlab d) (l := l) fun x hx => ⟨_, (hd x hx).choose_spec.1⟩
  obtain ⟨h1, h2⟩ := convertAll_spec hk
  refine ⟨d, k, hk, h1, fun i x y hx hy => ?_⟩
  obtain ⟨m, hm, hs⟩ := hd x (List.mem_of_getElem? hx)
  have := (h2 i x y hx hy).symm.trans hm
  cases this
  exact hs

theorem dict_arrives {l : List (String × PyObj)} (h : ∀ x ∈ l, ∃ d m, toMatlab d x.2 = .ok m ∧ Same x.2 m) :
    ∃ d k, convertAll (convertItem (toMatlab d)) l = .ok k ∧ l.map Prod.fst = k.map Prod.fst ∧
      ∀ (i : Nat) x y, l[i]? = some x → k[i]? = some y → Same x.2 y.2 := by
  obtain ⟨d, hd⟩ := common_depth (l := l.map Prod.snd) (by
    intro x hx
    obtain ⟨p, hp, rfl⟩ := List.mem_map.1 hx
    exact h p hp)
  have hd' : ∀ p ∈ l, ∃ m, toMatlab d p.2 = .ok m ∧ Same p.2 m := fun p hp => hd p.2 (List.mem_map_of_mem hp)
  obtain ⟨k, hk⟩ := convertAll_ok (f := convertItem (toMatlab d)) (l := l) fun p hp => by
    obtain ⟨m, hm, -⟩ := hd' p hp
    exact ⟨(p.1, m), convertItem_ok.2 ⟨hm, rfl⟩⟩
  obtain ⟨h1, h2⟩ := convertAll_spec hk
  refine ⟨d, k, hk, ?_, fun i x y hx hy => ?_⟩
  · refine List.ext_getElem? fun i => ?_
    simp only [List.getElem?_map]
    by_cases hi : i < l.length
    · have hi' : i < k.length := h1 ▸ hi
      rw [List.getElem?_eq_getElem hi, List.getElem?_eq_getElem hi']
      simp only [Option.map_some]
      rw [(convertItem_ok.1 (h2 i _ _ (List.getElem?_eq_getElem hi) (List.getElem?_eq_getElem hi'))).2]
    · rw [List.getElem?_eq_none (by omega), List.getElem?_eq_none (by omega)]
      rfl
  · obtain ⟨m, hm, hs⟩ := hd' x (List.mem_of_getElem? hx)
    have := (convertItem_ok.1 (h2 i x y hx hy)).1.symm.trans hm
    cases this
    exact hs

theorem same_of_plain {o : PyObj} (h : Plain o) : ∃ d m, toMatlab d o = .ok m ∧ Same o m := by
  induction h with
  | float x => exact ⟨1, _, rfl, .float x⟩
  | int x => exact ⟨1, _, rfl, .int x⟩
  | scalar x => exact ⟨1, _, rfl, .scalar x⟩
  | @table dtype c rows ht hr =>
    obtain ⟨m, hm, hdim, he⟩ := transfer_2d dtype ht c rows hr
    exact ⟨1, .array m, by simp [toMatlab, hm], .array (.inl ⟨c, rows, hr, rfl, hdim, he⟩)⟩
  | @vector dtype v ht =>
    obtain ⟨m, hm, hdim, he⟩ := transfer_1d dtype ht v
    exact ⟨1, .array m, by simp [toMatlab, hm], .array (.inr ⟨v, rfl, hdim, he⟩)⟩
  | list _ ih =>
    obtain ⟨d, k, hk, h1, h2⟩ := list_arrives ih
    exact ⟨d + 1, .list k, by simp [toMatlab, hk, packed], .list h1 h2⟩
  | set _ ih =>
    obtain ⟨d, k, hk, h1, h2⟩ := list_arrives ih
    exact ⟨d + 1, .set k, by simp [toMatlab, hk, packed], .set h1 h2⟩
  | dict _ ih =>
    obtain ⟨d, k, hk, h1, h2⟩ := dict_arrives ih
    exact ⟨d + 1, .dict k, by simp [toMatlab, hk, packed], .dict h1 h2⟩
  | series hn _ ih =>
    obtain ⟨d, k, hk, h1, h2⟩ := dict_arrives ih
    exact ⟨d + 2, .dict k, by simp [toMatlab, dictOf_nodup hn, hk, packed], .series h1 h2⟩

/-! ## The property -/

/-- C166, exactly the plain values arrive: if the interpreter allows enough calls inside each other, `to_matlab` of a plain value returns
the same value; and for every other value, whatever the interpreter allows, it raises an exception or returns something else.  Not
for all values of Python, see `tuple_arrives_refuted`, `text_arrives_refuted` and `repeated_label_arrives_refuted`. -/
theorem nested_arrives_partial (o : PyObj) :
    (Plain o → ∃ d m, (∀ d', d ≤ d' → toMatlab d' o = .ok m) ∧ Same o m) ∧
    (¬ Plain o → ∀ d m, toMatlab d o = .ok m → ¬ Same o m) := by
  refine ⟨fun h => ?_, fun h d m hm hs => h (plain_of_same d o m hm hs)⟩
  obtain ⟨d, m, hm, hs⟩ := same_of_plain h
  exact ⟨d, m, fun d' hd => toMatlab_mono hm hd, hs⟩

/-- The range of a two-dimensional scan next to gate voltages, as plain values. -/
example : Plain (.dict [("range", .array (ofRows "float64" 2 [[-4, 4], [-2, 2]])), ("n_points", .list [.int 20, .scalar (.ok 104)]),
    ("gates", .series [("SDB1", .float (-1)), ("SDB2", .scalar (.ok (-2)))])]) := by
  refine .dict fun x hx => ?_
  simp only [List.mem_cons, List.not_mem_nil, or_false] at hx
  rcases hx with rfl | rfl | rfl
  · exact .table (.inl rfl) (by simp)
  · refine .list fun x hx => ?_
    simp only [List.mem_cons, List.not_mem_nil, or_false] at hx
    rcases hx with rfl | rfl
    · exact .int _
    · exact .scalar _
  · refine .series (by simp) fun x hx => ?_
    simp only [List.mem_cons, List.not_mem_nil, or_false] at hx
    rcases hx with rfl | rfl
    · exact .float _
    · exact .scalar _

/-- Refutation: of every tuple only a generator is returned, even of an empty one, and even if a value inside cannot be converted. -/
theorem tuple_arrives_refuted (l : List PyObj) (d : Nat) :
    toMatlab (d + 1) (.tuple l) = .ok .generator ∧ ¬ Same (.tuple l) .generator :=
  ⟨rfl, fun h => by cases h⟩

/-- Refutation: a string, a truth value or `None` anywhere in lists, sets, dicts and Series makes the whole conversion fail. -/
theorem text_arrives_refuted {o : PyObj} (h : Inside .other o) : ∀ d, ∃ e, toMatlab d o = .error e := by
  have key : ∀ (d : Nat) (m : MObj), toMatlab d o ≠ .ok m := by
    induction h with
    | here =>
      intro d m hm
      cases d <;> simp [toMatlab] at hm
    | list hy _ ih =>
      intro d m hm
      cases d with
      | zero => simp [toMatlab] at hm
      | succ d =>
        obtain ⟨k, hk, -⟩ := packed_ok.1 (show packed MObj.list (convertAll (toMatlab d) _) = .ok m from hm)
        obtain ⟨z, -, hz⟩ := convertAll_mem_ok hk _ hy
        exact ih d z hz
    | set hy _ ih =>
      intro d m hm
      cases d with
      | zero => simp [toMatlab] at hm
      | succ d =>
        obtain ⟨k, hk, -⟩ := packed_ok.1 (show packed MObj.set (convertAll (toMatlab d) _) = .ok m from hm)
        obtain ⟨z, -, hz⟩ := convertAll_mem_ok hk _ hy
        exact ih d z hz
    | dict hy _ ih =>
      intro d m hm
      cases d with
      | zero => simp [toMatlab] at hm
      | succ d =>
        obtain ⟨k, hk, -⟩ :=
          packed_ok.1 (show packed MObj.dict (convertAll (convertItem (toMatlab d)) _) = .ok m from hm)
        obtain ⟨z, -, hz⟩ := convertAll_mem_ok hk _ hy
        exact ih d z.2 (convertItem_ok.1 hz).1
    | @series l p hy _ ih =>
      intro d m hm
      by_cases hn : (l.map Prod.fst).Nodup
      · match d, hm with
        | 1, hm => simp [toMatlab] at hm
        | d + 2, hm =>
          obtain ⟨k, hk, -⟩ := packed_ok.1
            (show packed MObj.dict (convertAll (convertItem (toMatlab d)) (PyObj.dictOf l)) = .ok m from hm)
          rw [dictOf_nodup hn] at hk
          obtain ⟨z, -, hz⟩ := convertAll_mem_ok hk _ hy
          exact ih d z.2 (convertItem_ok.1 hz).1
      · exact repeated_fails hn d m hm
  intro d
  cases hr : toMatlab d o with
  | error e => exact ⟨e, rfl⟩
  | ok m => exact absurd hr (key d m)

/-- The options of a line scan name a gate. -/
example : Inside .other (.dict [("range", .float 3), ("gate", .other)]) :=
  .dict (p := ("gate", .other)) (by simp) (.here _)

/-- Refutation: a Series with a label twice, all values of which can be converted, is converted over and over again until the interpreter
raises `RecursionError`. -/
theorem repeated_label_arrives_refuted {rows : List (String × PyObj)} (hn : ¬ (rows.map Prod.fst).Nodup)
    (hp : ∀ p ∈ rows, ∃ x : ℝ, p.2 = .float x) : ∀ d, toMatlab d (.series rows) = .error .recursionError := by
  intro d
  match d with
  | 0 => rfl
  | 1 => rfl
  | 2 =>
    show packed MObj.dict (convertAll (convertItem (toMatlab 0)) (PyObj.dictOf rows)) = _
    obtain ⟨l, ps, hl, hat, hps, h2⟩ := ofLabel_repeated hn
    have hmem : (l, PyObj.series ps) ∈ PyObj.dictOf rows := by
      unfold PyObj.dictOf
      exact List.mem_map.2 ⟨l, List.mem_dedup.2 hl, by rw [hat]⟩
    match hr : PyObj.dictOf rows, hmem with
    | a :: t, _ => rfl
  | d + 3 =>
    show packed MObj.dict (convertAll (convertItem (toMatlab (d + 1))) (PyObj.dictOf rows)) = _
    obtain ⟨l, ps, hl, hat, hps, h2⟩ := ofLabel_repeated hn
    have hmem : (l, PyObj.series ps) ∈ PyObj.dictOf rows := by
      unfold PyObj.dictOf
      exact List.mem_map.2 ⟨l, List.mem_dedup.2 hl, by rw [hat]⟩
    -- every entry is converted or raises RecursionError
    have hall : ∀ p ∈ PyObj.dictOf rows, (∃ q, convertItem (toMatlab (d + 1)) p = .ok q) ∨
        convertItem (toMatlab (d + 1)) p = .error .recursionError := by
      intro p hpm
      unfold PyObj.dictOf at hpm
      obtain ⟨l', hl', rfl⟩ := List.mem_map.1 hpm
      rw [List.mem_dedup] at hl'
      obtain ⟨p0, hp0, hpl⟩ := List.mem_map.1 hl'
      have hin : p0 ∈ rows.filter (fun p => p.1 = l') := List.mem_filter.2 ⟨hp0, by simpa using hpl⟩
      have hin' : ∀ p ∈ rows.filter (fun p => p.1 = l'), p ∈ rows ∧ p.1 = l' := fun p hp' => by
        simpa using List.mem_filter.1 hp'
      unfold convertItem PyObj.ofLabel
      generalize rows.filter (fun p => p.1 = l') = qs at hin hin'
      match qs, hin, hin' with
      | [q], _, hin' =>
        obtain ⟨x, hx⟩ := hp q (hin' q (by simp)).1
        left
        exact ⟨(l', .float x), by simp [hx, toMatlab]⟩
      | a :: b :: t, _, hin' =>
        right
        have hc : ∀ p ∈ a :: b :: t, p.1 = l' := fun p hp' => (hin' p hp').2
        simp [constant_recursion hc (by simp)]
    have hbad : convertItem (toMatlab (d + 1)) (l, PyObj.series ps) = .error .recursionError := by
      simp [convertItem, constant_recursion hps h2]
    suffices hs : ∀ its : List (String × PyObj), (∀ p ∈ its, (∃ q, convertItem (toMatlab (d + 1)) p = .ok q) ∨
        convertItem (toMatlab (d + 1)) p = .error .recursionError) → (l, PyObj.series ps) ∈ its →
        convertAll (convertItem (toMatlab (d + 1))) its = .error .recursionError by
      rw [hs _ hall hmem]
      rfl
    intro its
    induction its with
    | nil => intro _ h; simp at h
    | cons a t ih =>
      intro h1 h2
      rcases h1 a (by simp) with ⟨q, hq⟩ | hq
      · have ht : (l, PyObj.series ps) ∈ t := by
          rcases List.mem_cons.1 h2 with rfl | h2
          · rw [hbad] at hq; cases hq
          · exact h2
        simp [convertAll, hq, ih (fun p hp => h1 p (by simp [hp])) ht]
      · simp [convertAll, hq]

/-- Voltages in which a gate occurs twice. -/
example : ¬ (([("SDB1", PyObj.float 1), ("SDB2", .float 2), ("SDB1", .float 3)] : List (String × PyObj)).map Prod.fst).Nodup := by
  simp

end Qtune.Matlab
