import Verif.Storage.LeafSpec
import Mathlib.Tactic.SplitIfs
import Mathlib.Tactic.Tauto
import Mathlib.Tactic.Linarith

/-!
# Stored values are loaded as they were (C198)
-/

namespace Qtune.Storage.Leaf

variable {limit : DType → Nat} {repr : String → String}

theorem storeArr_ok {d : DType} {a b : Arr} : storeArr d a = .ok b ↔
    (Plain d ∧ b = { a with dtype := d }) ∨ (d = .vlen ∧ (∀ e ∈ a.data, Elem.storable e = true) ∧ b = { a with dtype := .vlen }) := by
  rw [@eq_comm _ b, @eq_comm _ b]
  cases d <;> simp [storeArr, Plain]
  split_ifs with h
  · simpa using fun _ => h
  · simp [h]

theorem getDtype_plain {a : Arr} (h : Plain a.dtype) : getDtype a = a.dtype := by
  rw [getDtype, if_neg]
  rintro e
  simp [Plain, e] at h

theorem storable_iff (s : String) : Elem.storable (.text s) = true ↔ NoNul s := by
  simp [Elem.storable, NoNul]

theorem texts_iff (a : Arr) : Texts a ↔ a.dtype = .object ∧ a.data.all Elem.isText = true ∧ ∀ e ∈ a.data, Elem.storable e = true := by
  constructor
  · rintro ⟨h, ht⟩
    refine ⟨h, List.all_eq_true.2 fun e he => ?_, fun e he => ?_⟩
    · obtain ⟨s, rfl, _⟩ := ht e he
      rfl
    · obtain ⟨s, rfl, hs⟩ := ht e he
      exact (storable_iff s).2 hs
  · rintro ⟨h, hi, hs⟩
    refine ⟨h, fun e he => ?_⟩
    have h1 := List.all_eq_true.1 hi e he
    have h2 := hs e he
    cases e <;> simp [Elem.isText] at h1
    exact ⟨_, rfl, (storable_iff _).1 h2⟩

/-- How an array is stored with the type that `_get_dtype` chooses. -/
theorem stored_arr {a b : Arr} (hv : a.dtype ≠ .vlen) : storeArr (getDtype a) a = .ok b ↔
    (Plain a.dtype ∧ b = a) ∨ (Texts a ∧ b = { a with dtype := .vlen }) := by
  rw [storeArr_ok, texts_iff]
  by_cases ho : a.dtype = .object
  · by_cases ht : a.data.all Elem.isText = true
    · rw [getDtype, if_pos ho, if_pos ht]
      simp only [ho, ht]
      simp [Plain]
    · rw [getDtype, if_pos ho, if_neg ht]
      simp only [ho, ht]
      simp [Plain]
  · rw [getDtype, if_neg ho]
    simp [ho, hv]

theorem readAttr_stored {a b : Arr} (h : (Plain a.dtype ∧ b = a) ∨ (Texts a ∧ b = { a with dtype := .vlen })) : readAttr b = a := by
  rcases h with ⟨hp, rfl⟩ | ⟨ht, rfl⟩
  · rw [readAttr, if_neg]
    intro e
    simp [Plain, e] at hp
  · simp [readAttr, ← ht.1]

theorem readArr_stored {a b : Arr} (h : (Plain a.dtype ∧ b = a) ∨ (Texts a ∧ b = { a with dtype := .vlen })) : readArr .two b = a := by
  rcases h with ⟨hp, rfl⟩ | ⟨ht, rfl⟩
  · rw [readArr, if_neg]
    intro e
    simp [Plain, e] at hp
  · simp [readArr, ← ht.1]

theorem storeAttr_ok {a b : Arr} (hv : a.dtype ≠ .vlen) : storeAttr limit a = .ok b ↔
    ((Plain a.dtype ∧ b = a) ∨ (Texts a ∧ b = { a with dtype := .vlen })) ∧ a.data.length ≤ limit (getDtype a) := by
  rw [← stored_arr hv, storeAttr]
  cases h : storeArr (getDtype a) a with
  | error e => simp
  | ok c =>
    simp only [Except.ok.injEq]
    split_ifs with hl
    · simp; omega
    · simp; omega

theorem getDtype_texts {a : Arr} (h : Texts a) : getDtype a = .vlen := by
  rw [getDtype, if_pos h.1, if_pos ((texts_iff a).1 h).2.1]

theorem goodLabels_iff {a : Arr} (hv : a.dtype ≠ .vlen) : GoodLabels limit a ↔ ∃ b, storeAttr limit a = .ok b := by
  simp only [storeAttr_ok hv]
  constructor
  · rintro (⟨hp, hl⟩ | ⟨ht, hl⟩)
    · exact ⟨a, .inl ⟨hp, rfl⟩, by rwa [getDtype_plain hp]⟩
    · exact ⟨_, .inr ⟨ht, rfl⟩, by rwa [getDtype_texts ht]⟩
  · rintro ⟨b, ⟨hp, rfl⟩ | ⟨ht, rfl⟩, hl⟩
    · exact .inl ⟨hp, by rwa [getDtype_plain hp] at hl⟩
    · exact .inr ⟨ht, by rwa [getDtype_texts ht] at hl⟩

theorem storeScalar_ok {d : DType} {e : Elem} {s : Stored} (hd : d ≠ .vlen) :
    storeScalar d e = .ok s ↔ Plain d ∧ s = .plain ⟨d, [], [e]⟩ := by
  rw [storeScalar]
  cases h : storeArr d ⟨d, [], [e]⟩ with
  | error x =>
    simp only [reduceCtorEq, false_iff, not_and]
    intro hp
    rw [storeArr_ok.2 (.inl ⟨hp, rfl⟩)] at h
    cases h
  | ok b =>
    rcases storeArr_ok.1 h with ⟨hp, rfl⟩ | ⟨hv, _⟩
    · simp [hp, @eq_comm _ s]
    · exact absurd hv hd

theorem intType_plain (z : ℤ) : Plain (intType z) ↔ -2 ^ 63 ≤ z ∧ z < 2 ^ 64 := by
  unfold intType
  split_ifs with h1 h2
  · simp only [Plain, true_or, or_true, true_iff]
    omega
  · simp only [Plain, true_or, or_true, true_iff]
    omega
  · simp only [Plain, reduceCtorEq, or_self, false_iff, not_and]
    intro h3
    by_contra h4
    omega

theorem intType_vlen (z : ℤ) : intType z ≠ .vlen := by
  unfold intType
  split_ifs <;> simp

theorem commonType_uniform {d : DType} {ds : List DType} (h : ∀ t ∈ ds, t = d) (hne : ds ≠ []) : commonType ds = d := by
  cases ds with
  | nil => exact absurd rfl hne
  | cons t ts =>
    have ht := h t (by simp)
    subst ht
    rw [commonType, if_pos (List.all_eq_true.2 fun x hx => decide_eq_true (h x (by simp [hx])))]

theorem commonType_cases (ds : List DType) :
    (∃ d, (∀ t ∈ ds, t = d) ∧ (commonType ds = d ∨ ds = [] ∧ commonType ds = .float64)) ∨
    ((∀ t ∈ ds, t = .float64 ∨ t = .int64 ∨ t = .uint64) ∧ commonType ds = .float64) ∨
    ((∀ t ∈ ds, Numeric t) ∧ commonType ds = .complex128) ∨
    ((¬ ∃ d, ∀ t ∈ ds, t = d) ∧ (¬ ∀ t ∈ ds, Numeric t) ∧ commonType ds = .object) := by
  cases ds with
  | nil => exact .inl ⟨.float64, by simp, .inl rfl⟩
  | cons t ts =>
    rw [commonType]
    split_ifs with h1 h2 h3
    · refine .inl ⟨t, ?_, .inl rfl⟩
      intro x hx
      rcases List.mem_cons.1 hx with rfl | hx
      · rfl
      · simpa using List.all_eq_true.1 h1 x hx
    · refine .inr (.inl ⟨fun x hx => ?_, rfl⟩)
      simpa using List.all_eq_true.1 h2 x hx
    · refine .inr (.inr (.inl ⟨fun x hx => ?_, rfl⟩))
      simpa [Numeric] using List.all_eq_true.1 h3 x hx
    · refine .inr (.inr (.inr ⟨?_, ?_, rfl⟩))
      · rintro ⟨d, hd⟩
        apply h1
        have := hd t (by simp)
        subst this
        exact List.all_eq_true.2 fun x hx => decide_eq_true (hd x (by simp [hx]))
      · intro hn
        exact h3 (List.all_eq_true.2 fun x hx => decide_eq_true (hn x hx))

theorem commonType_plain (ds : List DType) : Plain (commonType ds) ↔ (∃ d, Plain d ∧ ∀ t ∈ ds, t = d) ∨ ∀ t ∈ ds, Numeric t := by
  rcases commonType_cases ds with ⟨d, hd, h | ⟨rfl, h⟩⟩ | ⟨hn, h⟩ | ⟨hn, h⟩ | ⟨h1, h2, h⟩
  · rw [h]
    constructor
    · exact fun hp => .inl ⟨d, hp, hd⟩
    · cases ds with
      | nil => intro _; rw [← h]; simp [commonType, Plain]
      | cons t ts =>
        have ht := hd t (by simp)
        subst ht
        rintro (⟨e, he, hall⟩ | hall)
        · rw [hall t (by simp)]
          exact he
        · have := hall t (by simp)
          unfold Numeric at this
          unfold Plain
          tauto
  · simp [h, Plain]
  · rw [h]
    refine ⟨fun _ => .inr fun t ht => ?_, fun _ => .inl rfl⟩
    have := hn t ht
    unfold Numeric
    tauto
  · rw [h]
    exact ⟨fun _ => .inr hn, fun _ => by simp [Plain]⟩
  · rw [h]
    constructor
    · intro hp
      simp [Plain] at hp
    · rintro (⟨d, _, hd⟩ | hn)
      · exact absurd ⟨d, hd⟩ h1
      · exact absurd hn h2

theorem commonType_vlen {ds : List DType} (h : ∀ t ∈ ds, t ≠ .vlen) : commonType ds ≠ .vlen := by
  intro e
  rcases commonType_cases ds with ⟨d, hd, h' | ⟨rfl, h'⟩⟩ | ⟨hn, h'⟩ | ⟨hn, h'⟩ | ⟨h1, h2, h'⟩
  · cases ds with
    | nil => simp [commonType] at e
    | cons t ts => exact h t (by simp) (by rw [hd t (by simp), ← h', e])
  all_goals
    rw [h'] at e
    cases e

theorem convert_same_type {d : DType} {e : Elem} (hp : Plain d) (hf : Fits d e) : convert d e = e := by
  rcases hp with rfl | rfl | rfl | rfl | rfl <;> cases e <;> simp_all [Fits, convert]

/-- The conversion to the common type keeps the value, and the result is an element of the common type. -/
theorem convert_common {ds : List DType} {t : DType} {e : Elem} (hp : Plain (commonType ds)) (ht : t ∈ ds) (hf : Fits t e) :
    Same e (convert (commonType ds) e) ∧ Fits (commonType ds) (convert (commonType ds) e) := by
  rcases commonType_cases ds with ⟨d, hd, h | ⟨rfl, h⟩⟩ | ⟨hn, h⟩ | ⟨hn, h⟩ | ⟨h1, h2, h⟩
  · have := hd t ht
    subst this
    rw [h] at hp ⊢
    rw [convert_same_type hp hf]
    exact ⟨.inl rfl, hf⟩
  · simp at ht
  · rw [h]
    rcases hn t ht with rfl | rfl | rfl <;> cases e <;> simp_all [Fits, convert, Same, Elem.number]
  · rw [h]
    rcases hn t ht with rfl | rfl | rfl | rfl <;> cases e <;> simp_all [Fits, convert, Same, Elem.number]
  · rw [h] at hp
    simp [Plain] at hp

theorem store_frame_ok {i c : Arr} {cols : List (DType × List Elem)} {s : Stored} (hv : (Leaf.frame i c cols).Valid) :
    store limit (.frame i c cols) = .ok s ↔ Plain (commonType (cols.map Prod.fst)) ∧ ∃ i' c', storeAttr limit i = .ok i' ∧
      storeAttr limit c = .ok c' ∧ s = .frame i' c' (commonType (cols.map Prod.fst))
        (cols.map fun p => p.2.map (convert (commonType (cols.map Prod.fst)))) := by
  have hvl : commonType (cols.map Prod.fst) ≠ .vlen := commonType_vlen fun t ht => by
    obtain ⟨p, hp, rfl⟩ := List.mem_map.1 ht
    exact (hv.2.2 p hp).1
  rw [store]
  generalize commonType (cols.map Prod.fst) = d at hvl ⊢
  cases h : storeArr d ⟨d, [], []⟩ with
  | error e =>
    simp only [reduceCtorEq, false_iff, not_and]
    intro hp
    rw [storeArr_ok.2 (.inl ⟨hp, rfl⟩)] at h
    cases h
  | ok b =>
    have hp : Plain d := by
      rcases storeArr_ok.1 h with ⟨hp, _⟩ | ⟨hv, _⟩
      · exact hp
      · exact absurd hv hvl
    cases h1 : storeAttr limit i with
    | error e => simp
    | ok i' =>
      cases h2 : storeAttr limit c with
      | error e => simp
      | ok c' => simp [hp, @eq_comm _ s]

theorem store_series_ok {n m : Option String} {i v : Arr} {s : Stored} :
    store limit (.series n m i v) = .ok s ↔ ∃ v' i', storeArr (getDtype v) v = .ok v' ∧ storeAttr limit i = .ok i' ∧
      s = .series i' v' := by
  rw [store]
  cases h : storeArr (getDtype v) v with
  | error e => simp
  | ok v' =>
    cases h1 : storeAttr limit i with
    | error e => simp
    | ok i' => simp [@eq_comm _ s]

theorem store_array_ok {a : Arr} {s : Stored} (hv : a.dtype ≠ .vlen) :
    store limit (.array a) = .ok s ↔ Plain a.dtype ∧ s = .plain a := by
  rw [store]
  cases h : storeArr a.dtype a with
  | error e =>
    simp only [reduceCtorEq, false_iff, not_and]
    intro hp
    rw [storeArr_ok.2 (.inl ⟨hp, rfl⟩)] at h
    cases h
  | ok b =>
    rcases storeArr_ok.1 h with ⟨hp, rfl⟩ | ⟨hv', _⟩
    · simp [hp, @eq_comm _ s]
    · exact absurd hv' hv

theorem fits_vlen {e : Elem} (h : Fits .vlen e) : False := by cases e <;> exact h

/-- C198: exactly the values of the specification can be stored. -/
theorem stored_iff {l : Leaf} (hv : l.Valid) : (∃ s, store limit l = .ok s) ↔ Storable limit l := by
  cases l with
  | pyFloat x => simp [store, storeScalar_ok, Plain, Storable]
  | pyInt z => simp [store, storeScalar_ok (intType_vlen z), intType_plain, Storable]
  | pyBool b => simp [store, storeScalar_ok, Plain, Storable]
  | pyComplex x y => simp [store, storeScalar_ok, Plain, Storable]
  | npScalar d e =>
    have hd : d ≠ .vlen := by rintro rfl; exact fits_vlen hv.1
    simp [store, storeScalar_ok hd, Storable]
  | text s =>
    rw [store, Storable, ← storable_iff]
    split_ifs with h
    · simp [h]
    · simp [h]
  | array a => simp [store_array_ok hv.1, Storable]
  | series n m i v =>
    simp only [store_series_ok, Storable, goodLabels_iff hv.1.1, stored_arr hv.2.1]
    constructor
    · rintro ⟨s, v', i', h1, h2, _⟩
      exact ⟨h1.imp (·.1) (·.1), i', h2⟩
    · rintro ⟨hp | ht, i', h2⟩
      · exact ⟨_, v, i', .inl ⟨hp, rfl⟩, h2, rfl⟩
      · exact ⟨_, _, i', .inr ⟨ht, rfl⟩, h2, rfl⟩
  | frame i c cols =>
    simp only [store_frame_ok hv, commonType_plain, Storable, goodLabels_iff hv.1.1, goodLabels_iff hv.2.1.1, List.forall_mem_map]
    constructor
    · rintro ⟨s, hp, i', c', h1, h2, _⟩
      exact ⟨hp, ⟨i', h1⟩, c', h2⟩
    · rintro ⟨hp, ⟨i', h1⟩, c', h2⟩
      exact ⟨_, hp, i', c', h1, h2, rfl⟩

theorem load_scalar (h : H5py) (d : DType) (e : Elem) : load h repr (.plain ⟨d, [], [e]⟩) = .npScalar d e := rfl

/-- An array without dimensions has one element and is loaded as a number, any other one as an array. -/
theorem load_array {a : Arr} (hv : a.Valid) (hp : Plain a.dtype) :
    (a.shape = [] ∧ ∃ e, a.data = [e] ∧ load .two repr (.plain a) = .npScalar a.dtype e) ∨
    (a.shape ≠ [] ∧ load .two repr (.plain a) = .array a) := by
  have hr : readArr .two a = a := readArr_stored (.inl ⟨hp, rfl⟩)
  obtain ⟨d, sh, data⟩ := a
  cases sh with
  | nil =>
    have hl := hv.2.2
    simp only [List.foldr_nil] at hl
    obtain ⟨e, rfl⟩ := List.length_eq_one_iff.1 hl
    exact .inl ⟨rfl, e, rfl, rfl⟩
  | cons n ns => exact .inr ⟨by simp, by rw [load, hr]⟩

theorem forall₂_refl (xs : List Elem) : List.Forall₂ Same xs xs := by
  induction xs with
  | nil => exact .nil
  | cons x xs ih => exact .cons (.inl rfl) ih

theorem forall₂_convert {ds : List DType} {t : DType} (hp : Plain (commonType ds)) (ht : t ∈ ds) (xs : List Elem)
    (hf : ∀ e ∈ xs, Fits t e) : List.Forall₂ Same xs (xs.map (convert (commonType ds))) := by
  induction xs with
  | nil => exact .nil
  | cons x xs ih =>
    exact .cons (convert_common hp ht (hf x (by simp))).1 (ih fun e he => hf e (by simp [he]))

theorem frame_entries {ds : List DType} (hp : Plain (commonType ds)) (cols : List (DType × List Elem))
    (hall : ∀ p ∈ cols, p.1 ∈ ds ∧ ∀ e ∈ p.2, Fits p.1 e) :
    List.Forall₂ (List.Forall₂ Same) (cols.map Prod.snd) (cols.map fun p => p.2.map (convert (commonType ds))) := by
  induction cols with
  | nil => exact .nil
  | cons p ps ih =>
    have h := hall p (by simp)
    exact .cons (forall₂_convert hp h.1 _ h.2) (ih fun q hq => hall q (by simp [hq]))

/-- C198: with h5py 2 every value that can be stored is loaded with its kind, its labels and its values (what can be stored, and what
else may change, is said by `stored_iff` and `exact_iff`). -/
theorem loaded_values_partial {l : Leaf} (hv : l.Valid) {s : Stored} (h : store limit l = .ok s) :
    (load .two repr s).kind = l.kind ∧ (load .two repr s).labels = l.labels ∧
      List.Forall₂ (List.Forall₂ Same) l.entries (load .two repr s).entries := by
  have one : ∀ xs : List Elem, List.Forall₂ (List.Forall₂ Same) [xs] [xs] := fun xs => .cons (forall₂_refl xs) .nil
  cases l with
  | pyFloat x =>
    obtain ⟨_, rfl⟩ := (storeScalar_ok (d := .float64) (by simp)).1 h
    exact ⟨rfl, rfl, one _⟩
  | pyInt z =>
    obtain ⟨_, rfl⟩ := (storeScalar_ok (intType_vlen z)).1 h
    exact ⟨rfl, rfl, one _⟩
  | pyBool b =>
    obtain ⟨_, rfl⟩ := (storeScalar_ok (d := .bool) (by simp)).1 h
    exact ⟨rfl, rfl, one _⟩
  | pyComplex x y =>
    obtain ⟨_, rfl⟩ := (storeScalar_ok (d := .complex128) (by simp)).1 h
    exact ⟨rfl, rfl, one _⟩
  | npScalar d e =>
    have hd : d ≠ .vlen := by rintro rfl; exact fits_vlen hv.1
    obtain ⟨_, rfl⟩ := (storeScalar_ok hd).1 h
    exact ⟨rfl, rfl, one _⟩
  | text t =>
    rw [store] at h
    split_ifs at h
    cases h
    exact ⟨rfl, rfl, one _⟩
  | array a =>
    obtain ⟨hp, rfl⟩ := (store_array_ok hv.1).1 h
    rcases load_array (repr := repr) hv hp with ⟨hs, e, he, hl⟩ | ⟨hs, hl⟩
    · rw [hl]
      refine ⟨by simp [Leaf.kind, hs], rfl, ?_⟩
      simp only [Leaf.entries, he]
      exact one _
    · rw [hl]
      exact ⟨rfl, rfl, one _⟩
  | series n m i v =>
    obtain ⟨v', i', h1, h2, rfl⟩ := store_series_ok.1 h
    rw [load, readAttr_stored ((storeAttr_ok hv.1.1).1 h2).1, readArr_stored ((stored_arr hv.2.1).1 h1)]
    exact ⟨rfl, rfl, one _⟩
  | frame i c cols =>
    obtain ⟨hp, i', c', h1, h2, rfl⟩ := (store_frame_ok hv).1 h
    rw [load, readAttr_stored ((storeAttr_ok hv.1.1).1 h1).1, readAttr_stored ((storeAttr_ok hv.2.1.1).1 h2).1]
    refine ⟨rfl, rfl, ?_⟩
    simpa only [Leaf.entries, List.map_map, Function.comp_def] using
      frame_entries hp cols fun p hp => ⟨List.mem_map_of_mem hp, (hv.2.2 p hp).2⟩

theorem load_frame_cols {cols : List (DType × List Elem)} (hp : Plain (commonType (cols.map Prod.fst)))
    (hf : ∀ p ∈ cols, ∀ e ∈ p.2, Fits p.1 e) :
    (cols.map fun p => (commonType (cols.map Prod.fst), p.2.map (convert (commonType (cols.map Prod.fst))))) = cols ↔
      ∃ d, ∀ p ∈ cols, p.1 = d := by
  constructor
  · intro h
    refine ⟨commonType (cols.map Prod.fst), fun p hm => ?_⟩
    rw [← h] at hm
    obtain ⟨q, _, rfl⟩ := List.mem_map.1 hm
    rfl
  · rintro ⟨d, hd⟩
    cases hc : cols with
    | nil => rfl
    | cons q qs =>
      have hct : commonType (cols.map Prod.fst) = d := commonType_uniform (by simpa using hd) (by simp [hc])
      rw [← hc]
      rw [hct] at hp ⊢
      have : (cols.map fun p => (d, p.2.map (convert d))) = cols.map id := by
        refine List.map_congr_left fun p hm => ?_
        have hpd := hd p hm
        have : p.2.map (convert d) = p.2.map id :=
          List.map_congr_left fun e he => convert_same_type hp (hpd ▸ hf p hm e he)
        rw [this, List.map_id, ← hpd]
        rfl
      rw [this, List.map_id]

/-- C198: with h5py 2, exactly the values of the specification come back without any difference. -/
theorem exact_iff {l : Leaf} (hv : l.Valid) :
    (∃ s, store limit l = .ok s ∧ load .two repr s = l) ↔ Storable limit l ∧ Exact l := by
  rw [← stored_iff hv]
  suffices h : ∀ s, store limit l = .ok s → (load .two repr s = l ↔ Exact l) by
    constructor
    · rintro ⟨s, h1, h2⟩
      exact ⟨⟨s, h1⟩, (h s h1).1 h2⟩
    · rintro ⟨⟨s, h1⟩, h2⟩
      exact ⟨s, h1, (h s h1).2 h2⟩
  intro s h
  cases l with
  | pyFloat x =>
    obtain ⟨_, rfl⟩ := (storeScalar_ok (d := .float64) (by simp)).1 h
    simp [load_scalar, Exact]
  | pyInt z =>
    obtain ⟨_, rfl⟩ := (storeScalar_ok (intType_vlen z)).1 h
    simp [load_scalar, Exact]
  | pyBool b =>
    obtain ⟨_, rfl⟩ := (storeScalar_ok (d := .bool) (by simp)).1 h
    simp [load_scalar, Exact]
  | pyComplex x y =>
    obtain ⟨_, rfl⟩ := (storeScalar_ok (d := .complex128) (by simp)).1 h
    simp [load_scalar, Exact]
  | npScalar d e =>
    have hd : d ≠ .vlen := by rintro rfl; exact fits_vlen hv.1
    obtain ⟨_, rfl⟩ := (storeScalar_ok hd).1 h
    simp [load_scalar, Exact]
  | text t =>
    rw [store] at h
    split_ifs at h
    cases h
    simp [load, Exact]
  | array a =>
    obtain ⟨hp, rfl⟩ := (store_array_ok hv.1).1 h
    rcases load_array (repr := repr) hv hp with ⟨hs, e, he, hl⟩ | ⟨hs, hl⟩
    · rw [hl]
      simp [Exact, hs]
    · rw [hl]
      simp [Exact, hs]
  | series n m i v =>
    obtain ⟨v', i', h1, h2, rfl⟩ := store_series_ok.1 h
    rw [load, readAttr_stored ((storeAttr_ok hv.1.1).1 h2).1, readArr_stored ((stored_arr hv.2.1).1 h1)]
    simp [Exact, @eq_comm _ none]
  | frame i c cols =>
    obtain ⟨hp, i', c', h1, h2, rfl⟩ := (store_frame_ok hv).1 h
    rw [load, readAttr_stored ((storeAttr_ok hv.1.1).1 h1).1, readAttr_stored ((storeAttr_ok hv.2.1.1).1 h2).1, Exact,
      ← load_frame_cols hp fun p hp => (hv.2.2 p hp).2]
    simp [Function.comp_def]

/-- C198: what was loaded with h5py 2 can be stored again, and is then loaded without any difference. -/
theorem reload_stable {l : Leaf} (hv : l.Valid) {s : Stored} (h : store limit l = .ok s) :
    ∃ s', store limit (load .two repr s) = .ok s' ∧ load .two repr s' = load .two repr s := by
  have hst := (stored_iff hv).1 ⟨s, h⟩
  suffices hg : (load .two repr s).Valid ∧ Storable limit (load .two repr s) ∧ Exact (load .two repr s) from
    (exact_iff hg.1).2 hg.2
  cases l with
  | pyFloat x =>
    obtain ⟨hp, rfl⟩ := (storeScalar_ok (d := .float64) (by simp)).1 h
    exact ⟨⟨trivial, by simp⟩, hp, trivial⟩
  | pyInt z =>
    obtain ⟨hp, rfl⟩ := (storeScalar_ok (intType_vlen z)).1 h
    refine ⟨⟨?_, ?_⟩, hp, trivial⟩
    · unfold intType
      split_ifs <;> trivial
    · intro e
      change intType z = _ at e
      simp [Plain, e] at hp
  | pyBool b =>
    obtain ⟨hp, rfl⟩ := (storeScalar_ok (d := .bool) (by simp)).1 h
    exact ⟨⟨trivial, by simp⟩, hp, trivial⟩
  | pyComplex x y =>
    obtain ⟨hp, rfl⟩ := (storeScalar_ok (d := .complex128) (by simp)).1 h
    exact ⟨⟨trivial, by simp⟩, hp, trivial⟩
  | npScalar d e =>
    have hd : d ≠ .vlen := by rintro rfl; exact fits_vlen hv.1
    obtain ⟨hp, rfl⟩ := (storeScalar_ok hd).1 h
    exact ⟨hv, hp, trivial⟩
  | text t =>
    have hst' : NoNul t := hst
    rw [store] at h
    split_ifs at h
    cases h
    exact ⟨trivial, hst', trivial⟩
  | array a =>
    obtain ⟨hp, rfl⟩ := (store_array_ok hv.1).1 h
    rcases load_array (repr := repr) hv hp with ⟨hs, e, he, hl⟩ | ⟨hs, hl⟩
    · rw [hl]
      exact ⟨⟨hv.2.1 e (by simp [he]), fun e' => by simp [Plain, e'] at hp⟩, hp, trivial⟩
    · rw [hl]
      exact ⟨hv, hp, hs⟩
  | series n m i v =>
    obtain ⟨v', i', h1, h2, rfl⟩ := store_series_ok.1 h
    rw [load, readAttr_stored ((storeAttr_ok hv.1.1).1 h2).1, readArr_stored ((stored_arr hv.2.1).1 h1)]
    exact ⟨hv, hst, rfl, rfl⟩
  | frame i c cols =>
    obtain ⟨hp, i', c', h1, h2, rfl⟩ := (store_frame_ok hv).1 h
    rw [load, readAttr_stored ((storeAttr_ok hv.1.1).1 h1).1, readAttr_stored ((storeAttr_ok hv.2.1.1).1 h2).1]
    have hm : ∀ p ∈ (cols.map fun p => p.2.map (convert (commonType (cols.map Prod.fst)))).map
        (fun c => (commonType (cols.map Prod.fst), c)),
        ∃ q ∈ cols, p = (commonType (cols.map Prod.fst), q.2.map (convert (commonType (cols.map Prod.fst)))) := by
      intro p hp
      simp only [List.map_map, List.mem_map, Function.comp] at hp
      obtain ⟨q, hq, rfl⟩ := hp
      exact ⟨q, hq, rfl⟩
    refine ⟨⟨hv.1, hv.2.1, fun p hpm => ?_⟩, ⟨.inl ⟨_, hp, fun p hpm => ?_⟩, hst.2⟩, ⟨commonType (cols.map Prod.fst), fun p hpm => ?_⟩⟩
    · obtain ⟨q, hq, rfl⟩ := hm p hpm
      refine ⟨fun e => by dsimp only at e; simp [Plain, e] at hp, fun e he => ?_⟩
      obtain ⟨x, hx, rfl⟩ := List.mem_map.1 he
      exact (convert_common hp (List.mem_map_of_mem hq) ((hv.2.2 q hq).2 x hx)).2
    · obtain ⟨q, hq, rfl⟩ := hm p hpm
      rfl
    · obtain ⟨q, hq, rfl⟩ := hm p hpm
      rfl

/-- C198 is false for the names of a Series and of its index: with every version of h5py they are lost. -/
theorem names_refuted (h : H5py) (n m : Option String) (hn : n ≠ none ∨ m ≠ none) (i v : Arr) (s : Stored)
    (hs : store limit (.series n m i v) = .ok s) : load h repr s ≠ .series n m i v := by
  obtain ⟨v', i', h1, h2, rfl⟩ := store_series_ok.1 hs
  intro e
  simp only [load, Leaf.series.injEq] at e
  rcases hn with hn | hn
  · exact hn e.1.symm
  · exact hn e.2.1.symm

/-- C198 is false for texts that are loaded with h5py 3: they come back as the representation of `bytes` (`hr`: as Python writes
`bytes` of printable ASCII characters without quotes and backslashes). -/
theorem text_refuted (t : String) (hr : repr t = "b'" ++ t ++ "'") (s : Stored) (hs : store limit (.text t) = .ok s) :
    load .three repr s = .text ("b'" ++ t ++ "'") ∧ load .three repr s ≠ .text t := by
  rw [store] at hs
  split_ifs at hs
  cases hs
  have hl : load .three repr (.text t) = .text ("b'" ++ t ++ "'") := by rw [load, hr]
  refine ⟨hl, ?_⟩
  rw [hl]
  intro e
  have := congrArg String.length (Leaf.text.inj e)
  simp only [String.length_append] at this
  have h1 : "b'".length = 2 := by decide
  omega

/-- C198 is false for a Series of texts that is loaded with h5py 3: it holds `bytes` and cannot be stored again. -/
theorem texts_refuted (n m : Option String) (i v : Arr) (ht : Texts v) (hne : v.data ≠ []) (s : Stored)
    (hs : store limit (.series n m i v) = .ok s) : store limit (load .three repr s) = .error .typeError := by
  obtain ⟨v', i', h1, h2, rfl⟩ := store_series_ok.1 hs
  have hv : v.dtype ≠ .vlen := by rw [ht.1]; simp
  have hv' : v' = { v with dtype := .vlen } := by
    rcases (stored_arr hv).1 h1 with ⟨hp, _⟩ | ⟨_, h⟩
    · rw [ht.1] at hp
      simp [Plain] at hp
    · exact h
  subst hv'
  obtain ⟨e, es, hes⟩ := List.exists_cons_of_ne_nil hne
  obtain ⟨t, rfl, _⟩ := ht.2 e (by simp [hes])
  simp [load, store, readArr, hes, getDtype, Elem.isText, storeArr]

/-- Arrays of texts and of other objects cannot be stored at all, a Series with the same texts can. -/
theorem object_array_refuted {a : Arr} (hv : a.Valid) (hd : a.dtype = .object ∨ a.dtype = .unicode) :
    store limit (.array a) = .error .typeError := by
  rcases hd with hd | hd <;> rw [store, hd, storeArr]

/-- DataFrames with a column of texts, or with columns of numbers and of truth values, cannot be stored. -/
theorem mixed_frame_refuted {i c : Arr} {cols : List (DType × List Elem)} (hv : (Leaf.frame i c cols).Valid)
    (hm : (∃ p ∈ cols, p.1 = .object) ∨ ((∃ p ∈ cols, p.1 = .bool) ∧ ∃ p ∈ cols, Numeric p.1)) (s : Stored) :
    store limit (.frame i c cols) ≠ .ok s := by
  intro h
  have hst := ((stored_iff hv).1 ⟨s, h⟩).1
  rcases hst with ⟨d, hd, hall⟩ | hall
  · rcases hm with ⟨p, hp, ho⟩ | ⟨⟨p, hp, hb⟩, q, hq, hn⟩
    · rw [← hall p hp, ho] at hd
      simp [Plain] at hd
    · rw [hall q hq, ← hall p hp, hb] at hn
      simp [Numeric] at hn
  · rcases hm with ⟨p, hp, ho⟩ | ⟨⟨p, hp, hb⟩, _⟩
    · have := hall p hp
      rw [ho] at this
      simp [Numeric] at this
    · have := hall p hp
      rw [hb] at this
      simp [Numeric] at this

/-- A Series whose index is larger than an attribute may be cannot be stored. -/
theorem large_index_refuted {n m : Option String} {i v : Arr} (hi : i.dtype ≠ .vlen) (hl : ∀ d, limit d < i.data.length) (s : Stored) :
    store limit (.series n m i v) ≠ .ok s := by
  intro h
  obtain ⟨v', i', _, h2, _⟩ := store_series_ok.1 h
  exact absurd ((storeAttr_ok hi).1 h2).2 (Nat.not_le.2 (hl _))

/-! ## Cases that meet the hypotheses -/

/-- Voltages with the names of gates as index, and a name of the Series. -/
noncomputable def voltages : Leaf :=
  .series (some "voltages") none ⟨.object, [2], [.text "RFA", .text "RFB"]⟩ ⟨.float64, [2], [.float (some (1 / 2)), .float none]⟩

/-- A DataFrame with a column of integers and one of floats. -/
noncomputable def counts : Leaf :=
  .frame ⟨.int64, [2], [.int 0, .int 1]⟩ ⟨.object, [2], [.text "n", .text "x"]⟩
    [(.int64, [.int 3, .int 4]), (.float64, [.float (some (1 / 2)), .float none])]

theorem voltages_valid : voltages.Valid := by simp [voltages, Leaf.Valid, Arr.Valid, Fits]

theorem counts_valid : counts.Valid := by simp [counts, Leaf.Valid, Arr.Valid, Fits]

example : Storable (fun _ => 4096) voltages ∧ ¬ Exact voltages := by
  simp [voltages, Storable, Exact, Plain, GoodLabels, Texts, NoNul]

example : Storable (fun _ => 4096) counts ∧ ¬ Exact counts := by
  refine ⟨by simp [counts, Storable, Plain, Numeric, GoodLabels, Texts, NoNul], ?_⟩
  rintro ⟨d, hd⟩
  have h1 := hd (.int64, [.int 3, .int 4]) (by simp)
  have h2 := hd (.float64, [.float (some (1 / 2)), .float none]) (by simp)
  rw [← h1] at h2
  cases h2

/-- The integers come back as floats with the same values. -/
example : ∃ s, store (fun _ => 4096) counts = .ok s ∧ load .two repr s = .frame ⟨.int64, [2], [.int 0, .int 1]⟩
    ⟨.object, [2], [.text "n", .text "x"]⟩
    [(.float64, [.float (some 3), .float (some 4)]), (.float64, [.float (some (1 / 2)), .float none])] := by
  refine ⟨_, rfl, ?_⟩
  simp [load, readAttr, commonType, convert, getDtype, Elem.isText]

/-- A Series with 5000 texts as index, when attributes hold 4096 texts. -/
example (v : Arr) (hv : v.Valid) (s : Stored) :
    store (fun _ => 4096) (.series none none ⟨.object, [5000], List.replicate 5000 (.text "RFA")⟩ v) ≠ .ok s :=
  large_index_refuted (by simp) (fun _ => by rw [List.length_replicate]; omega) s

end Qtune.Storage.Leaf
