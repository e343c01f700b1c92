import Verif.Storage.KeyModel
import Mathlib.Data.List.Basic
import Mathlib.Data.List.Nodup

/-!
# Keys of stored dicts (C195)
-/

namespace Qtune.Storage.Keys

variable {α : Type}

/-- A key without `/` that is neither empty nor `.`. -/
def Plain (k : String) : Prop := '/' ∉ k.toList ∧ k ≠ "" ∧ k ≠ "."

theorem cut_plain {w : List Char} (h : '/' ∉ w) : cut w = [w] := by
  induction w with
  | nil => rfl
  | cons c w ih =>
    have hc : c ≠ '/' := fun e => h (by simp [e])
    rw [cut, if_neg hc, ih fun hm => h (List.mem_cons_of_mem _ hm)]

theorem cut_append {w : List Char} (h : '/' ∉ w) (v : List Char) : cut (w ++ '/' :: v) = w :: cut v := by
  induction w with
  | nil => simp [cut]
  | cons c w ih =>
    have hc : c ≠ '/' := fun e => h (by simp [e])
    rw [List.cons_append, cut, if_neg hc, ih fun hm => h (List.mem_cons_of_mem _ hm)]

theorem cut_clean (w : List Char) : ∀ v ∈ cut w, '/' ∉ v := by
  induction w with
  | nil => simp [cut]
  | cons c w ih =>
    rw [cut]
    split
    · intro v hv
      rcases List.mem_cons.1 hv with rfl | hv
      · simp
      · exact ih v hv
    · rename_i hc
      split
      · rename_i he
        intro v hv
        simp only [List.mem_singleton] at hv
        subst hv
        simp [Ne.symm hc]
      · rename_i u us he
        rw [he] at ih
        intro v hv
        rcases List.mem_cons.1 hv with rfl | hv
        · have := ih u (by simp)
          simp [Ne.symm hc, this]
        · exact ih v (by simp [hv])

theorem steps_clean (k : String) : ∀ w ∈ steps k, '/' ∉ w.toList := by
  intro w hw
  unfold steps at hw
  obtain ⟨hw, -⟩ := List.mem_filter.1 hw
  obtain ⟨v, hv, rfl⟩ := List.mem_map.1 hw
  simpa using cut_clean _ v hv

theorem steps_plain {k : String} (h : Plain k) : steps k = [k] := by
  simp [steps, cut_plain h.1, h.2.1, h.2.2]

theorem steps_two {a b : String} (ha : Plain a) (hb : Plain b) : steps (a ++ "/" ++ b) = [a, b] := by
  have : (a ++ "/" ++ b).toList = a.toList ++ '/' :: b.toList := by simp
  simp [steps, this, cut_append ha.1, cut_plain hb.1, ha.2, hb.2]

theorem steps_root {b : String} (hb : Plain b) : steps ("/" ++ b) = [b] := by
  have : ("/" ++ b).toList = '/' :: b.toList := by simp
  simp [steps, this, cut, cut_plain hb.1, hb.2]

theorem not_absolute {a : String} (ha : Plain a) (b : String) : isAbsolute (a ++ b) = false := by
  have hne : a.toList ≠ [] := by simpa using ha.2.1
  obtain ⟨c, cs, hc⟩ := List.exists_cons_of_ne_nil hne
  have : c ≠ '/' := by
    rintro rfl
    exact ha.1 (by rw [hc]; simp)
  simp [isAbsolute, String.toList_append, hc, this]

theorem not_absolute' {a : String} (ha : Plain a) : isAbsolute a = false := by simpa using not_absolute ha ""

theorem putAll_plain (name : String) (items : List (String × α)) (hp : ∀ e ∈ items, Plain e.1) (done : List (String × Tree α))
    (hn : (done.map Prod.fst ++ items.map Prod.fst).Nodup) :
    putAll name items (.group [(name, .group done)]) = .ok (.group [(name, .group (done ++ items.map fun e => (e.1, .leaf e.2)))]) := by
  induction items generalizing done with
  | nil => simp [putAll]
  | cons e items ih =>
    obtain ⟨k, a⟩ := e
    have hk : Plain k := hp (k, a) (by simp)
    have hlook : done.lookup k = none := by
      rw [List.lookup_eq_none_iff]
      intro q hq
      simp only [List.map_cons] at hn
      have := (List.nodup_append.1 hn).2.2 q.1 (List.mem_map.2 ⟨q, hq, rfl⟩) k (by simp)
      simpa using Ne.symm this
    rw [putAll, steps_plain hk, not_absolute' hk]
    simp only [List.cons_ne_nil, if_false, Bool.false_eq_true]
    simp only [put, List.lookup_cons, beq_self_eq_true, hlook, replace, if_true]
    rw [ih (fun e he => hp e (by simp [he]))]
    · simp
    · simpa using hn

/-- **C195** (partial): a dict with different keys, none of which contains `/` or is empty or a single dot, has the same keys and values after it has been stored and loaded. -/
theorem plain_keys_partial (name : String) (items : List (String × α)) (hp : ∀ e ∈ items, Plain e.1) (hn : (items.map Prod.fst).Nodup) :
    ∃ f, save name items = .ok f ∧ load name f = some (.group (items.map fun e => (e.1, .leaf e.2))) := by
  refine ⟨_, putAll_plain name items hp [] (by simpa using hn), ?_⟩
  simp [load]

/-- All names in the tree are free of `/`. -/
inductive Clean : Tree α → Prop
  | leaf (a : α) : Clean (.leaf a)
  | group (ms : List (String × Tree α)) (h : ∀ m ∈ ms, '/' ∉ m.1.toList) (h' : ∀ m ∈ ms, Clean m.2) : Clean (.group ms)

theorem mem_replace {k : String} {t : Tree α} {ms : List (String × Tree α)} {m : String × Tree α} (h : m ∈ replace k t ms) :
    m = (k, t) ∨ m ∈ ms := by
  induction ms with
  | nil => simp [replace] at h
  | cons x ms ih =>
    rw [replace] at h
    split at h
    · rcases List.mem_cons.1 h with h | h
      · exact .inl h
      · exact .inr (by simp [h])
    · rcases List.mem_cons.1 h with h | h
      · exact .inr (by simp [h])
      · rcases ih h with h | h
        · exact .inl h
        · exact .inr (by simp [h])

theorem clean_add {ms : List (String × Tree α)} {k : String} {t : Tree α} (hms : Clean (.group ms)) (hk : '/' ∉ k.toList) (ht : Clean t) :
    Clean (.group (ms ++ [(k, t)])) := by
  cases hms with
  | group _ h h' =>
    refine .group _ (fun m hm => ?_) fun m hm => ?_
    · rcases List.mem_append.1 hm with hm | hm
      · exact h m hm
      · simp only [List.mem_singleton] at hm; subst hm; exact hk
    · rcases List.mem_append.1 hm with hm | hm
      · exact h' m hm
      · simp only [List.mem_singleton] at hm; subst hm; exact ht

theorem lookup_mem {ms : List (String × Tree α)} {k : String} {t : Tree α} (h : ms.lookup k = some t) : (k, t) ∈ ms := by
  induction ms with
  | nil => simp at h
  | cons x ms ih =>
    obtain ⟨l, u⟩ := x
    by_cases hl : k = l
    · subst hl
      simp only [List.lookup_cons, beq_self_eq_true, Option.some.injEq] at h
      simp [h]
    · simp only [List.lookup_cons, show (k == l) = false by simp [hl]] at h
      simp [ih h]

theorem put_clean (a : α) : ∀ (path : List String), (∀ w ∈ path, '/' ∉ w.toList) → ∀ (t t' : Tree α), Clean t → put a path t = .ok t' → Clean t' := by
  intro path
  induction path with
  | nil => intro _ t t' _ h; cases t <;> simp [put] at h
  | cons k ks ih =>
    intro hw t t' ht h
    cases t with
    | leaf b => simp [put] at h
    | group ms =>
      cases ks with
      | nil =>
        simp only [put] at h
        split at h
        · cases h
        · cases h
          exact clean_add ht (hw k (by simp)) (.leaf a)
      | cons l ks =>
        simp only [put] at h
        split at h
        · rename_i sub hsub
          split at h
          · cases h
          · rename_i sub' hs'
            cases h
            cases ht with
            | group _ h1 h2 =>
              have hc := ih (fun w hm => hw w (List.mem_cons_of_mem _ hm)) sub sub' (h2 _ (lookup_mem hsub)) hs'
              refine .group _ (fun m hm => ?_) fun m hm => ?_
              · rcases mem_replace hm with rfl | hm
                · exact hw k (by simp)
                · exact h1 m hm
              · rcases mem_replace hm with rfl | hm
                · exact hc
                · exact h2 m hm
        · split at h
          · cases h
          · rename_i sub' hs'
            cases h
            exact clean_add ht (hw k (by simp)) (ih (fun w hm => hw w (List.mem_cons_of_mem _ hm)) _ sub' (.group [] (by simp) (by simp)) hs')

theorem putAll_clean (name : String) (hname : '/' ∉ name.toList) : ∀ (items : List (String × α)) (f f' : Tree α), Clean f → putAll name items f = .ok f' → Clean f' := by
  intro items
  induction items with
  | nil => intro f f' hf h; cases h; exact hf
  | cons e items ih =>
    intro f f' hf h
    obtain ⟨k, a⟩ := e
    rw [putAll] at h
    split at h
    · cases h
    · split at h
      · cases h
      · rename_i g hg
        refine ih g f' (put_clean a _ ?_ f g hf hg) h
        intro w hw
        split at hw
        · exact steps_clean k w hw
        · rcases List.mem_cons.1 hw with rfl | hw
          · exact hname
          · exact steps_clean k w hw

/-- **C195** is false: whatever else the dict contains, an entry whose key contains `/` is never there after loading: storing raises, or the loaded dict does not have
this key. -/
theorem slash_keys_refuted (name : String) (hname : '/' ∉ name.toList) (items : List (String × α)) (k : String) (hk : '/' ∈ k.toList) (f : Tree α)
    (h : save name items = .ok f) : ∀ ms, load name f = some (.group ms) → ms.lookup k = none := by
  intro ms hl
  have hc : Clean f := putAll_clean name hname items _ f
    (.group _ (by simp [hname]) (by simp only [List.mem_singleton, forall_eq]; exact .group [] (by simp) (by simp))) h
  cases hc with
  | leaf a => simp [load] at hl
  | group gs h1 h2 =>
    simp only [load] at hl
    have := h2 _ (lookup_mem hl)
    cases this with
    | group _ h3 _ =>
      rw [List.lookup_eq_none_iff]
      intro q hq
      have : k ≠ q.1 := by rintro rfl; exact h3 q hq hk
      simpa using this

/-- **C195** is false: `{'a/b': v}` is loaded as `{'a': {'b': v}}`. -/
theorem slash_key_nested_refuted (name a b : String) (ha : Plain a) (hb : Plain b) (v : α) :
    ∃ f, save name [(a ++ "/" ++ b, v)] = .ok f ∧ load name f = some (.group [(a, .group [(b, .leaf v)])]) := by
  refine ⟨.group [(name, .group [(a, .group [(b, .leaf v)])])], ?_, by simp [load]⟩
  have hab : isAbsolute (a ++ "/" ++ b) = false := by
    rw [String.append_assoc]
    exact not_absolute ha _
  simp [save, putAll, steps_two ha hb, hab, put, replace]

/-- **C195** is false: an entry whose key begins with `/` leaves the dict and becomes an object of the file, beside those that the program has stored. -/
theorem absolute_key_refuted (name b : String) (hb : Plain b) (hne : b ≠ name) (v : α) :
    ∃ f, save name [("/" ++ b, v)] = .ok f ∧ load name f = some (.group []) ∧ load b f = some (.leaf v) := by
  have hb1 : (b == name) = false := by simp [hne]
  refine ⟨.group [(name, .group []), (b, .leaf v)], ?_, by simp [load], by simp [load, List.lookup_cons, hb1]⟩
  have hab : isAbsolute ("/" ++ b) = true := by simp [isAbsolute]
  simp [save, putAll, steps_root hb, hab, put, List.lookup_cons, hb1]

/-- **C195** is false: a dict with the keys `a` and `a/b` cannot be stored. -/
theorem slash_key_clash_refuted (name a b : String) (ha : Plain a) (hb : Plain b) (v w : α) : save name [(a, v), (a ++ "/" ++ b, w)] = .error .valueError := by
  have hab : isAbsolute (a ++ "/" ++ b) = false := by
    rw [String.append_assoc]
    exact not_absolute ha _
  simp [save, putAll, steps_plain ha, not_absolute' ha, steps_two ha hb, hab, put, replace]

theorem putAll_mem (name k : String) (hk : k = "" ∨ k = ".") : ∀ (items : List (String × α)) (f f' : Tree α), k ∈ items.map Prod.fst →
    putAll name items f ≠ .ok f' := by
  have hs : steps k = [] := by rcases hk with rfl | rfl <;> decide
  intro items
  induction items with
  | nil => intro f f' h; simp at h
  | cons e items ih =>
    intro f f' hm h
    obtain ⟨l, a⟩ := e
    rw [putAll] at h
    split at h
    · cases h
    · rename_i hl
      split at h
      · cases h
      · rcases List.mem_cons.1 hm with rfl | hm
        · exact hl hs
        · exact ih _ _ hm h

/-- **C195** is false: a dict with an empty key or the key `.` cannot be stored, whatever else it contains. -/
theorem empty_key_refuted (name k : String) (hk : k = "" ∨ k = ".") (items : List (String × α)) (hm : k ∈ items.map Prod.fst) (f : Tree α) :
    save name items ≠ .ok f := putAll_mem name k hk items _ f hm

/-- The options of a measurement with units in their names. -/
example : ∃ f, save "options" [("range/mV", 4)] = .ok f ∧ load "options" f = some (.group [("range", .group [("mV", .leaf 4)])]) :=
  slash_key_nested_refuted "options" "range" "mV" ⟨by decide, by decide, by decide⟩ ⟨by decide, by decide, by decide⟩ 4

/-- Usual options. -/
example : ∃ f, save "options" [("range", 4), ("N_points", 1280)] = .ok f ∧ load "options" f = some (.group [("range", .leaf 4), ("N_points", .leaf 1280)]) :=
  plain_keys_partial "options" [("range", 4), ("N_points", 1280)] (by
    intro e he
    simp only [List.mem_cons, List.not_mem_nil, or_false] at he
    rcases he with rfl | rfl
    · exact ⟨by decide, by decide, by decide⟩
    · exact ⟨by decide, by decide, by decide⟩) (by decide)

end Qtune.Storage.Keys
