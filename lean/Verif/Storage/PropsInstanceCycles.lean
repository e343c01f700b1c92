import Verif.Storage.PropsCycles
import Verif.Storage.FileLemmas

/-! # Cycles of instances and tuples are saved but can never be loaded -/

namespace Qtune.Storage

variable {ν α : Type}

/-- At the path there is the object itself or a reference to it.  `S q y`: at `q` there is the object `y`. -/
def Leads (file : List (Path × Entry α)) (S : Path → ν → Prop) (p : Path) (c : ν) : Prop :=
  S p c ∨ ∃ q, file.lookup p = some (.ref q) ∧ S q c

/-- At the path there is an object and below it are its members. -/
def Entire (heap : ν → Obj ν α) (file : List (Path × Entry α)) (S : Path → ν → Prop) (p : Path) (y : ν) : Prop :=
  file.lookup p = some (heap y).entry ∧ ∀ k c, (k, c) ∈ (heap y).children → Leads file S (p ++ [k]) c

/-- From `s` with the objects `S` to `s'` with the objects `S'`. -/
structure Adds (addr : ν → Nat) (heap : ν → Obj ν α) (s s' : WState α) (S S' : Path → ν → Prop) : Prop where
  sub : ∀ p y, S p y → S' p y
  file : ∀ p e, s.file.lookup p = some e → s'.file.lookup p = some e
  ser : ∀ y q, s'.ser.lookup (addr y) = some q → S' q y
  new : ∀ q y, S' q y → S q y ∨ Entire heap s'.file S' q y
  plain : (∀ p e, (p, e) ∈ s.file → e ≠ Entry.reserved) → ∀ p e, (p, e) ∈ s'.file → e ≠ Entry.reserved

theorem Leads.mono {file file' : List (Path × Entry α)} {S S' : Path → ν → Prop} {p : Path} {c : ν}
    (hf : ∀ p e, file.lookup p = some e → file'.lookup p = some e) (hS : ∀ p y, S p y → S' p y)
    (h : Leads file S p c) : Leads file' S' p c :=
  h.imp (hS _ _) fun ⟨q, h1, h2⟩ => ⟨q, hf _ _ h1, hS _ _ h2⟩

theorem Entire.mono {heap : ν → Obj ν α} {file file' : List (Path × Entry α)} {S S' : Path → ν → Prop} {p : Path} {c : ν}
    (hf : ∀ p e, file.lookup p = some e → file'.lookup p = some e) (hS : ∀ p y, S p y → S' p y)
    (h : Entire heap file S p c) : Entire heap file' S' p c :=
  ⟨hf _ _ h.1, fun k c hc => (h.2 k c hc).mono hf hS⟩

theorem Adds.trans {addr : ν → Nat} {heap : ν → Obj ν α} {s₁ s₂ s₃ : WState α} {S₁ S₂ S₃ : Path → ν → Prop}
    (h : Adds addr heap s₁ s₂ S₁ S₂) (h' : Adds addr heap s₂ s₃ S₂ S₃) : Adds addr heap s₁ s₃ S₁ S₃ where
  sub p y hy := h'.sub p y (h.sub p y hy)
  file p e he := h'.file p e (h.file p e he)
  ser := h'.ser
  new q y hy := by
    rcases h'.new q y hy with h1 | h1
    · exact (h.new q y h1).imp id fun h2 => h2.mono h'.file h'.sub
    · exact .inr h1
  plain hs := h'.plain (h.plain hs)

theorem put_facts {p : Path} {e : Entry α} {s s' : WState α} (h : s.put p e = .ok s') :
    s'.ser = s.ser ∧ (∀ q e', s.file.lookup q = some e' → s'.file.lookup q = some e') ∧
      s'.file.lookup p = some e ∧ s'.file = (p, e) :: s.file := by
  unfold WState.put at h
  split at h
  · cases h
  · rename_i hn
    cases h
    refine ⟨rfl, fun q e' hq => ?_, ?_, rfl⟩
    · rw [put_lookup, if_neg]
      · exact hq
      · rintro rfl; rw [hn] at hq; cases hq
    · rw [put_lookup, if_pos rfl]

theorem Adds.put {addr : ν → Nat} {heap : ν → Obj ν α} {p : Path} {e : Entry α} {s s' : WState α}
    {S : Path → ν → Prop} (hser : ∀ y q, s.ser.lookup (addr y) = some q → S q y) (h : s.put p e = .ok s')
    (he : e ≠ .reserved) : Adds addr heap s s' S S := by
  obtain ⟨h1, h2, h3, h4⟩ := put_facts h
  refine ⟨fun _ _ => id, h2, by rw [h1]; exact hser, fun _ _ => .inl, fun hs q e' hm => ?_⟩
  rw [h4] at hm
  rcases List.mem_cons.1 hm with hm | hm
  · cases hm; exact he
  · exact hs q e' hm

theorem entry_ne_reserved (o : Obj ν α) : o.entry ≠ .reserved := by cases o <;> simp [Obj.entry]

/-- What is written: at the path there is the object or a reference to it, and everything that was added is
whole. -/
theorem write_adds {addr : ν → Nat} (haddr : Function.Injective addr) {heap : ν → Obj ν α} (n : Nat) :
    ∀ p x s s' (S : Path → ν → Prop), (∀ y q, s.ser.lookup (addr y) = some q → S q y) →
      write addr heap n p x s = .ok s' →
      ∃ S', Adds addr heap s s' S S' ∧ Leads s'.file S' p x := by
  induction n with
  | zero => intro p x s s' S _ h; cases h
  | succ n ih =>
    have hall : ∀ p items s s' (S : Path → ν → Prop), (∀ y q, s.ser.lookup (addr y) = some q → S q y) →
        writeAll (write addr heap n) p items s = .ok s' →
        ∃ S', Adds addr heap s s' S S' ∧ ∀ k c, (k, c) ∈ items → Leads s'.file S' (p ++ [k]) c := by
      intro p items
      induction items with
      | nil =>
        intro s s' S hs h
        cases h
        exact ⟨S, ⟨fun _ _ => id, fun _ _ => id, hs, fun _ _ => .inl, id⟩, fun k c hm => by simp at hm⟩
      | cons kc items ih' =>
        intro s s' S hs h
        obtain ⟨k, c⟩ := kc
        unfold writeAll at h
        cases hw : write addr heap n (p ++ [k]) c s with
        | error e => rw [hw] at h; cases h
        | ok s₁ =>
          rw [hw] at h
          obtain ⟨S₁, h1, h2⟩ := ih _ _ _ _ S hs hw
          obtain ⟨S₂, h3, h4⟩ := ih' s₁ s' S₁ h1.ser h
          refine ⟨S₂, h1.trans h3, fun k' c' hm => ?_⟩
          rcases List.mem_cons.1 hm with hm | hm
          · cases hm
            exact h2.mono h3.file h3.sub
          · exact h4 k' c' hm
    intro p x s s' S hs h
    -- registration of an object that is whole
    have reg : ∀ (s₂ : WState α) (S₂ : Path → ν → Prop), Adds addr heap s s₂ S S₂ →
        s₂.file.lookup p = some (heap x).entry →
        (∀ k c, (k, c) ∈ (heap x).children → Leads s₂.file S₂ (p ++ [k]) c) →
        ∃ S', Adds addr heap s (s₂.register (addr x) p) S S' ∧ Leads (s₂.register (addr x) p).file S' p x := by
      intro s₂ S₂ h1 h2 h3
      refine ⟨fun q y => S₂ q y ∨ (q = p ∧ y = x), ⟨fun q y hy => .inl (h1.sub q y hy), h1.file, fun y q hq => ?_,
        fun q y hy => ?_, h1.plain⟩, .inl (.inr ⟨rfl, rfl⟩)⟩
      · rw [register_lookup] at hq
        split at hq
        · rename_i he
          exact .inr ⟨(Option.some.inj hq).symm, haddr he⟩
        · exact .inl (h1.ser y q hq)
      · rcases hy with hy | ⟨rfl, rfl⟩
        · exact (h1.new q y hy).imp id fun hw => hw.mono (fun _ _ => id) fun _ _ => .inl
        · exact .inr ⟨h2, fun k c hc => (h3 k c hc).mono (fun _ _ => id) fun _ _ => .inl⟩
    -- the members are written and the object is registered after that
    have after : ∀ (s₁ s₂ : WState α), s.put p (heap x).entry = .ok s₁ →
        writeAll (write addr heap n) p (heap x).children s₁ = .ok s₂ →
        ∃ S', Adds addr heap s (s₂.register (addr x) p) S S' ∧ Leads (s₂.register (addr x) p).file S' p x := by
      intro s₁ s₂ h1 h2
      have hp : Adds addr heap s s₁ S S := .put hs h1 (entry_ne_reserved _)
      obtain ⟨S₂, h3, h4⟩ := hall p _ s₁ s₂ S hp.ser h2
      exact reg s₂ S₂ (hp.trans h3) (h3.file _ _ (put_facts h1).2.2.1) h4
    -- leaves
    have leaf : ∀ s₁ : WState α, s.put p (heap x).entry = .ok s₁ → (heap x).children = [] →
        ∃ S', Adds addr heap s (s₁.register (addr x) p) S S' ∧ Leads (s₁.register (addr x) p).file S' p x := by
      intro s₁ h1 hc
      exact after s₁ s₁ h1 (by rw [hc]; rfl)
    unfold write at h
    split at h
    · rename_i q hq
      exact ⟨S, .put hs h (by simp), .inr ⟨q, (put_facts h).2.2.1, hs _ _ hq⟩⟩
    · split at h
      · rename_i items ho
        split at h
        · cases h
        · rename_i s₁ h1
          split at h
          · cases h
          · rename_i s₂ h2
            cases h
            exact after s₁ s₂ (by rw [ho]; exact h1) (by rw [ho]; exact h2)
      · rename_i items ho
        split at h
        · cases h
        · rename_i s₁ h1
          split at h
          · cases h
          · rename_i s₂ h2
            cases h
            exact after s₁ s₂ (by rw [ho]; exact h1) (by rw [ho]; exact h2)
      · rename_i items ho
        split at h
        · cases h
        · rename_i s₁ h1
          split at h
          · cases h
          · rename_i s₂ h2
            cases h
            exact after s₁ s₂ (by rw [ho]; exact h1) (by rw [ho]; exact h2)
      · rename_i cls kwargs ho
        split at h
        · cases h
        · rename_i s₁ h1
          have h1' : s.put p (heap x).entry = .ok s₁ := by rw [ho]; exact h1
          have hp : Adds addr heap s s₁ S S := .put hs h1' (entry_ne_reserved _)
          set S₁ : Path → ν → Prop := fun q y => S q y ∨ (q = p ∧ y = x) with hS₁
          obtain ⟨S₂, h3, h4⟩ := hall p kwargs (s₁.register (addr x) p) s' S₁ (by
            intro y q hq
            rw [register_lookup] at hq
            split at hq
            · rename_i he
              exact .inr ⟨(Option.some.inj hq).symm, haddr he⟩
            · exact .inl (hp.ser y q hq)) h
          have hfile : ∀ q e, s₁.file.lookup q = some e → s'.file.lookup q = some e := h3.file
          refine ⟨S₂, ⟨fun q y hy => h3.sub q y (.inl hy), fun q e he => hfile q e (hp.file q e he), h3.ser,
            fun q y hy => ?_, fun hpl => h3.plain (hp.plain hpl)⟩, .inl (h3.sub p x (.inr ⟨rfl, rfl⟩))⟩
          rcases h3.new q y hy with (h5 | ⟨rfl, rfl⟩) | h5
          · exact .inl h5
          · exact .inr ⟨hfile _ _ (put_facts h1').2.2.1, by rw [ho]; exact h4⟩
          · exact .inr h5
      · rename_i a ho
        split at h
        · cases h
        · rename_i s₁ h1
          cases h
          exact leaf s₁ (by rw [ho]; exact h1) (by rw [ho]; rfl)
      · rename_i a ho
        split at h
        · cases h
        · rename_i s₁ h1
          cases h
          exact leaf s₁ (by rw [ho]; exact h1) (by rw [ho]; rfl)
      · rename_i a ho
        have h1' : s.put p (heap x).entry = .ok s' := by rw [ho]; exact h
        have hp : Adds addr heap s s' S S := .put hs h1' (entry_ne_reserved _)
        refine ⟨fun q y => S q y ∨ (q = p ∧ y = x), ⟨fun q y hy => .inl hy, hp.file, fun y q hq => .inl (hp.ser y q hq),
          fun q y hy => ?_, hp.plain⟩, .inl (.inr ⟨rfl, rfl⟩)⟩
        rcases hy with hy | ⟨rfl, rfl⟩
        · exact .inl hy
        · exact .inr ⟨(put_facts h1').2.2.1, fun k c hc => by rw [ho] at hc; simp [Obj.children] at hc⟩
      · rename_i ho
        split at h
        · cases h
        · rename_i s₁ h1
          cases h
          exact leaf s₁ (by rw [ho]; exact h1) (by rw [ho]; rfl)
      · cases h

/-- The object is an instance or a tuple: it is created after its members are loaded. -/
def IsBuilt : Obj ν α → Prop
  | .tuple _ => True
  | .inst _ _ => True
  | _ => False

/-- A file in which everything is whole. -/
structure Filed (heap : ν → Obj ν α) (file : List (Path × Entry α)) (S : Path → ν → Prop) : Prop where
  whole : ∀ p y, S p y → Entire heap file S p y

theorem child_of_member {o : Obj ν α} {c : ν} (h : c ∈ o.members) : ∃ k, (k, c) ∈ o.children := by
  cases o with
  | dict items => simpa [Obj.members, Obj.children] using h
  | inst cls kwargs => simpa [Obj.members, Obj.children] using h
  | list items =>
    rw [Obj.members, ← enumerate_snd items] at h
    simpa [Obj.children] using h
  | tuple items =>
    rw [Obj.members, ← enumerate_snd items] at h
    simpa [Obj.children] using h
  | _ => simp [Obj.members] at h

theorem register_deser {s : RState α} {p q : Path} {r : Nat} :
    (s.register p r).deser.lookup q = if q = p then some r else s.deser.lookup q := by
  unfold RState.register
  simp only [List.lookup_cons]
  by_cases h : q = p
  · subst h; simp
  · simp [h, beq_eq_false_iff_ne.2 h]

section
variable {heap : ν → Obj ν α} {file : List (Path × Entry α)} {S : Path → ν → Prop} {order : List String → List String}

/-- The path leads to an object of the cycle. -/
def Bad (file : List (Path × Entry α)) (S : Path → ν → Prop) (C : ν → Prop) (p : Path) : Prop :=
  ∃ c, C c ∧ Leads file S p c

theorem readAll_cycle {f : Path → RState α → Except PyErr (Nat × RState α)} {C : ν → Prop}
    (ih : ∀ p s, (∀ q, Bad file S C q → s.deser.lookup q = none) →
      (Bad file S C p → ∃ e, f p s = .error e) ∧
      ∀ r s', f p s = .ok (r, s') → ∀ q, Bad file S C q → s'.deser.lookup q = none) :
    ∀ p ks s, (∀ q, Bad file S C q → s.deser.lookup q = none) →
        ((∃ k ∈ ks, Bad file S C (p ++ [k])) → ∃ e, readAll (f) p ks s = .error e) ∧
        ∀ r s', readAll (f) p ks s = .ok (r, s') → ∀ q, Bad file S C q → s'.deser.lookup q = none := by
  intro p ks
  induction ks with
  | nil =>
    intro s hs
    refine ⟨fun ⟨k, hk, _⟩ => by simp at hk, fun r s' h => ?_⟩
    cases h
    exact hs
  | cons k ks ih' =>
    intro s hs
    obtain ⟨h1, h2⟩ := ih (p ++ [k]) s hs
    unfold readAll
    cases hr : f (p ++ [k]) s with
    | error e => exact ⟨fun _ => ⟨e, rfl⟩, fun r s' h => by cases h⟩
    | ok rs =>
      obtain ⟨r, s₁⟩ := rs
      obtain ⟨h3, h4⟩ := ih' s₁ (h2 r s₁ hr)
      constructor
      · rintro ⟨k', hk', hb⟩
        rcases List.mem_cons.1 hk' with rfl | hk'
        · obtain ⟨e, he⟩ := h1 hb
          rw [hr] at he; cases he
        · obtain ⟨e, he⟩ := h3 ⟨k', hk', hb⟩
          exact ⟨e, by simp only [he]⟩
      · intro r' s' h
        dsimp only at h
        split at h
        · cases h
        · rename_i rs s₂ h5
          cases h
          exact h4 _ _ h5

theorem read_cycle (hfiled : Filed heap file S) (horder : ∀ l, (order l).Perm l) {C : ν → Prop}
    (hbuilt : ∀ x, C x → IsBuilt (heap x)) (hcyc : ∀ x, C x → ∃ c, c ∈ (heap x).members ∧ C c) (n : Nat) :
    ∀ p s, (∀ q, Bad file S C q → s.deser.lookup q = none) →
      (Bad file S C p → ∃ e, read order file n p s = .error e) ∧
      ∀ r s', read order file n p s = .ok (r, s') → ∀ q, Bad file S C q → s'.deser.lookup q = none := by
  induction n with
  | zero =>
    intro p s _
    exact ⟨fun _ => ⟨_, rfl⟩, fun r s' h => by cases h⟩
  | succ n ih =>
    have hall := readAll_cycle (f := read order file n) ih
    intro p s hs
    -- the entries of the cycle
    have hbad : ∀ q, Bad file S C q → (∃ q', file.lookup q = some (.ref q') ∧ Bad file S C q') ∨
        (∃ cls ks, file.lookup q = some (.group (.inst cls) ks) ∧ ∃ k ∈ order ks, Bad file S C (q ++ [k])) ∨
        ∃ ks, file.lookup q = some (.group .tuple ks) ∧ ∃ k ∈ indices ks.length, Bad file S C (q ++ [k]) := by
      rintro q ⟨c, hc, hl | ⟨q', h1, h2⟩⟩
      · obtain ⟨he, hch⟩ := hfiled.whole q c hl
        obtain ⟨d, hd, hCd⟩ := hcyc c hc
        obtain ⟨k, hk⟩ := child_of_member hd
        have hbk : Bad file S C (q ++ [k]) := ⟨d, hCd, hch k d hk⟩
        have hb := hbuilt c hc
        right
        cases ho : heap c with
        | tuple items =>
          rw [ho] at he hk
          refine .inr ⟨_, he, k, ?_, hbk⟩
          have hkm : k ∈ (enumerate items).map Prod.fst := List.mem_map.2 ⟨(k, d), hk, rfl⟩
          rw [enumerate_keys] at hkm
          rw [List.length_map]
          simpa [enumerate] using hkm
        | inst cls kwargs =>
          rw [ho] at he hk
          exact .inl ⟨cls, _, he, k, (horder _).mem_iff.2 (List.mem_map.2 ⟨(k, d), hk, rfl⟩), hbk⟩
        | _ => rw [ho] at hb; exact hb.elim
      · exact .inl ⟨q', h1, c, hc, .inl h2⟩
    have herr : Bad file S C p → ∃ e, read order file (n + 1) p s = .error e := by
      intro hb
      unfold read
      rw [hs p hb]
      dsimp only
      rcases hbad p hb with ⟨q', h1, h2⟩ | ⟨cls, ks, h1, h2⟩ | ⟨ks, h1, h2⟩
      · rw [h1]
        exact (ih q' s hs).1 h2
      · obtain ⟨e, he⟩ := (hall p (order ks) s hs).1 h2
        rw [h1]
        dsimp only
        exact ⟨e, by rw [he]⟩
      · obtain ⟨e, he⟩ := (hall p (indices ks.length) s hs).1 h2
        rw [h1]
        dsimp only
        exact ⟨e, by rw [he]⟩
    refine ⟨herr, fun r s' h => ?_⟩
    have hp : ¬ Bad file S C p := fun hb => by
      obtain ⟨e, he⟩ := herr hb
      rw [h] at he; cases he
    have hreg : ∀ (s : RState α) r, (∀ q, Bad file S C q → s.deser.lookup q = none) →
        ∀ q, Bad file S C q → (s.register p r).deser.lookup q = none := by
      intro s r hs q hq
      rw [register_deser, if_neg (by rintro rfl; exact hp hq)]
      exact hs q hq
    unfold read at h
    split at h
    · cases h; exact hs
    · split at h
      · cases h
      · split at h
        · cases h
        · rename_i h1
          cases h
          have h2 := (hall _ _ _ (hreg (s.alloc _) _ hs)).2 _ _ h1
          exact h2
      · split at h
        · cases h
        · rename_i h1
          cases h
          have h2 := (hall _ _ _ hs).2 _ _ h1
          exact hreg (RState.alloc _ _) _ h2
      · split at h
        · cases h
        · rename_i h1
          cases h
          have h2 := (hall _ _ _ (hreg (s.alloc _) _ hs)).2 _ _ h1
          exact h2
      · split at h
        · cases h
        · rename_i h1
          cases h
          have h2 := (hall _ _ _ hs).2 _ _ h1
          exact hreg (RState.alloc _ _) _ h2
      · cases h; exact hreg (s.alloc _) _ hs
      · cases h; exact hs
      · exact (ih _ s hs).2 _ _ h
      · cases h; exact hs
      · cases h; exact hs
      · cases h

/-- The object was loaded. -/
def Loaded (S : Path → ν → Prop) (s : RState α) (c : ν) : Prop := ∃ q, S q c ∧ s.deser.lookup q ≠ none

/-- From `s` to `s'` while loading: everything stays registered, the members of what is new are loaded, and no
reference is registered. -/
structure Loads (heap : ν → Obj ν α) (file : List (Path × Entry α)) (S : Path → ν → Prop) (s s' : RState α) :
    Prop where
  mono : ∀ q, s.deser.lookup q ≠ none → s'.deser.lookup q ≠ none
  new : ∀ q y, S q y → s'.deser.lookup q ≠ none → s.deser.lookup q = none →
    ∀ c ∈ (heap y).members, IsGroup (heap c) → Loaded S s' c
  refs : (∀ q q', file.lookup q = some (.ref q') → s.deser.lookup q = none) →
    ∀ q q', file.lookup q = some (.ref q') → s'.deser.lookup q = none

theorem Loaded.mono {s s' : RState α} {c : ν} (h : Loads heap file S s s') (hl : Loaded S s c) : Loaded S s' c :=
  hl.imp fun _ hq => ⟨hq.1, h.mono _ hq.2⟩

theorem Loads.rfl' {s s' : RState α} (h : s'.deser = s.deser) : Loads heap file S s s' :=
  ⟨fun q hq => by rwa [h], fun q y _ h1 h2 => absurd (h ▸ h2) h1, fun hs => by rwa [h]⟩

theorem Loads.trans {s₁ s₂ s₃ : RState α} (h : Loads heap file S s₁ s₂) (h' : Loads heap file S s₂ s₃) :
    Loads heap file S s₁ s₃ := by
  refine ⟨fun q hq => h'.mono q (h.mono q hq), fun q y hS h3 h1 c hc hg => ?_, fun hs => h'.refs (h.refs hs)⟩
  by_cases h2 : s₂.deser.lookup q = none
  · exact h'.new q y hS h3 h2 c hc hg
  · exact (h.new q y hS h2 h1 c hc hg).mono h'

theorem readAll_loads {f : Path → RState α → Except PyErr (Nat × RState α)}
    (ih : ∀ p s r s', (∀ q q', file.lookup q = some (.ref q') → s.deser.lookup q = none) → f p s = .ok (r, s') →
      Loads heap file S s s' ∧ ∀ c, Leads file S p c → IsGroup (heap c) → Loaded S s' c) :
    ∀ p ks s rs s', (∀ q q', file.lookup q = some (.ref q') → s.deser.lookup q = none) →
        readAll (f) p ks s = .ok (rs, s') →
        Loads heap file S s s' ∧ ∀ k ∈ ks, ∀ c, Leads file S (p ++ [k]) c → IsGroup (heap c) → Loaded S s' c := by
  intro p ks
  induction ks with
  | nil => intro s rs s' hs h; cases h; exact ⟨.rfl' rfl, fun k hk => by simp at hk⟩
  | cons k ks ih' =>
    intro s rs s' hs h
    unfold readAll at h
    cases hr : f (p ++ [k]) s with
    | error e => rw [hr] at h; cases h
    | ok x =>
      obtain ⟨r, s₁⟩ := x
      rw [hr] at h
      dsimp only at h
      split at h
      · cases h
      · rename_i rs' s₂ h5
        cases h
        obtain ⟨h1, h2⟩ := ih _ _ _ _ hs hr
        obtain ⟨h3, h4⟩ := ih' s₁ _ _ (h1.refs hs) h5
        refine ⟨h1.trans h3, fun k' hk' c hl hg => ?_⟩
        rcases List.mem_cons.1 hk' with rfl | hk'
        · exact (h2 c hl hg).mono h3
        · exact h4 k' hk' c hl hg

theorem read_loads (hfiled : Filed heap file S) (horder : ∀ l, (order l).Perm l) (n : Nat) :
    ∀ p s r s', (∀ q q', file.lookup q = some (.ref q') → s.deser.lookup q = none) →
      read order file n p s = .ok (r, s') →
      Loads heap file S s s' ∧ ∀ c, Leads file S p c → IsGroup (heap c) → Loaded S s' c := by
  induction n with
  | zero => intro p s r s' _ h; cases h
  | succ n ih =>
    have hall := readAll_loads (heap := heap) (f := read order file n) ih
    intro p s r s' hs h
    -- a group at the path: registration before or after its members
    have before : ∀ typ keys ks (s₁ s₂ : RState α) rs r', file.lookup p = some (.group typ keys) →
        s₁.deser = s.deser → (∀ q y c k, S q y → q = p → (k, c) ∈ (heap y).children → k ∈ ks) →
        readAll (read order file n) p ks (s₁.register p r') = .ok (rs, s₂) →
        (∀ s₃ : RState α, s₃.deser = s₂.deser →
          Loads heap file S s s₃ ∧ ∀ c, Leads file S p c → IsGroup (heap c) → Loaded S s₃ c) := by
      intro typ keys ks s₁ s₂ rs r' hp hs₁ hks h2 s₃ hs₃
      have hrefs : ∀ q q', file.lookup q = some (.ref q') → (s₁.register p r').deser.lookup q = none := by
        intro q q' hq
        rw [register_deser, if_neg, hs₁]
        · exact hs q q' hq
        · rintro rfl; rw [hp] at hq; cases hq
      obtain ⟨h3, h4⟩ := hall p ks _ rs s₂ hrefs h2
      have hpr : s₃.deser.lookup p ≠ none := by
        rw [hs₃]
        exact h3.mono p (by rw [register_deser, if_pos rfl]; simp)
      have h5 := h3.trans (Loads.rfl' (heap := heap) (file := file) (S := S) hs₃)
      refine ⟨⟨fun q hq => h5.mono q ?_, fun q y hS hq hn c hc hg => ?_, fun _ => h5.refs hrefs⟩, fun c hl hg => ?_⟩
      · rw [register_deser]
        split
        · simp
        · rwa [hs₁]
      · by_cases hqp : q = p
        · subst hqp
          obtain ⟨k, hk⟩ := child_of_member hc
          obtain ⟨he, hch⟩ := hfiled.whole q y hS
          have hkk : k ∈ ks := hks q y c k hS rfl hk
          exact (h4 k hkk c (hch k c hk) hg).mono (Loads.rfl' (heap := heap) (file := file) hs₃)
        · refine h5.new q y hS hq ?_ c hc hg
          rw [register_deser, if_neg hqp, hs₁]
          exact hn
      · rcases hl with hl | ⟨q, hq, _⟩
        · exact ⟨p, hl, hpr⟩
        · rw [hp] at hq; cases hq
    have after : ∀ typ keys ks (s₂ s₃ : RState α) rs r', file.lookup p = some (.group typ keys) →
        (∀ q y c k, S q y → q = p → (k, c) ∈ (heap y).children → k ∈ ks) → readAll (read order file n) p ks s = .ok (rs, s₂) → s₃.deser = s₂.deser →
          Loads heap file S s (s₃.register p r') ∧
            ∀ c, Leads file S p c → IsGroup (heap c) → Loaded S (s₃.register p r') c := by
      intro typ keys ks s₂ s₃ rs r' hp hks h2 hs₃
      obtain ⟨h3, h4⟩ := hall p ks s rs s₂ hs h2
      have h5 : Loads heap file S s₂ (s₃.register p r') := by
        refine ⟨fun q hq => ?_, fun q y hS hq hn c hc hg => ?_, fun hr q q' hq => ?_⟩
        · rw [register_deser]
          split
          · simp
          · rwa [hs₃]
        · by_cases hqp : q = p
          · subst hqp
            obtain ⟨k, hk⟩ := child_of_member hc
            obtain ⟨he, hch⟩ := hfiled.whole q y hS
            have hkk : k ∈ ks := hks q y c k hS rfl hk
            obtain ⟨q', h6, h7⟩ := h4 k hkk c (hch k c hk) hg
            refine ⟨q', h6, ?_⟩
            rw [register_deser]
            split
            · simp
            · rwa [hs₃]
          · rw [register_deser, if_neg hqp, hs₃] at hq
            exact absurd hn hq
        · rw [register_deser, if_neg, hs₃]
          · exact hr q q' hq
          · rintro rfl; rw [hp] at hq; cases hq
      refine ⟨h3.trans h5, fun c hl hg => ?_⟩
      rcases hl with hl | ⟨q, hq, _⟩
      · exact ⟨p, hl, by rw [register_deser, if_pos rfl]; simp⟩
      · rw [hp] at hq; cases hq
    -- not a group
    have noGroup : (∀ typ keys, file.lookup p ≠ some (.group typ keys)) → (∀ q, file.lookup p ≠ some (.ref q)) →
        ∀ c, Leads file S p c → ¬ IsGroup (heap c) := by
      intro h1 h2 c hl hg
      rcases hl with hl | ⟨q, hq, _⟩
      · have he := (hfiled.whole p c hl).1
        cases ho : heap c <;> rw [ho] at he hg <;> first | exact hg.elim | exact h1 _ _ he
      · exact h2 q hq
    unfold read at h
    split at h
    · rename_i r' hr'
      cases h
      refine ⟨.rfl' rfl, fun c hl hg => ?_⟩
      rcases hl with hl | ⟨q, hq, _⟩
      · exact ⟨p, hl, by rw [hr']; simp⟩
      · rw [hs p q hq] at hr'; cases hr'
    · rename_i hnone
      -- the names of the members
      have named : ∀ typ keys, file.lookup p = some (.group typ keys) → ∀ q y c k, S q y → q = p →
          (k, c) ∈ (heap y).children → k ∈ keys ∧ (typ = .list ∨ typ = .tuple → k ∈ indices keys.length) := by
        rintro typ keys hp q y c k hS rfl hk
        have he := (hfiled.whole q y hS).1
        rw [hp] at he
        have hkm : k ∈ (heap y).children.map Prod.fst := List.mem_map.2 ⟨(k, c), hk, rfl⟩
        cases ho : heap y <;> rw [ho] at he hkm <;> simp only [Obj.entry, Option.some.injEq, Entry.group.injEq,
          reduceCtorEq] at he
        all_goals
          obtain ⟨rfl, rfl⟩ := he
          refine ⟨hkm, fun ht => ?_⟩
          first
            | (simp at ht; done)
            | (rw [List.length_map]
               rw [Obj.children, enumerate_keys] at hkm
               simpa [enumerate] using hkm)
      split at h
      · cases h
      · rename_i keys hp
        split at h
        · cases h
        · rename_i h1
          cases h
          have h2 := before _ keys _ (s.alloc _) _ _ _ hp rfl (fun q y c k hS he hk => (horder _).mem_iff.2 (named _ _ hp q y c k hS he hk).1) h1
          exact h2 _ rfl
      · rename_i cls keys hp
        split at h
        · cases h
        · rename_i h1
          cases h
          exact after _ keys _ _ _ _ _ hp (fun q y c k hS he hk => (horder _).mem_iff.2 (named _ _ hp q y c k hS he hk).1) h1 rfl
      · rename_i keys hp
        split at h
        · cases h
        · rename_i h1
          cases h
          have h2 := before _ keys _ (s.alloc _) _ _ _ hp rfl (fun q y c k hS he hk => (named _ _ hp q y c k hS he hk).2 (.inl rfl)) h1
          exact h2 _ rfl
      · rename_i keys hp
        split at h
        · cases h
        · rename_i h1
          cases h
          exact after _ keys _ _ _ _ _ hp (fun q y c k hS he hk => (named _ _ hp q y c k hS he hk).2 (.inr rfl)) h1 rfl
      · rename_i a hp
        cases h
        refine ⟨⟨fun q hq => ?_, fun q y hS hq hn c hc hg => ?_, fun hr q q' hq => ?_⟩, fun c hl hg =>
          absurd hg (noGroup (by rw [hp]; simp) (by rw [hp]; simp) c hl)⟩
        · rw [register_deser]
          split
          · simp
          · exact hq
        · by_cases hqp : q = p
          · subst hqp
            exact absurd (isGroup_of_member hc) (noGroup (by rw [hp]; simp) (by rw [hp]; simp) y (.inl hS))
          · rw [register_deser, if_neg hqp] at hq
            exact absurd hn hq
        · rw [register_deser, if_neg]
          · exact hr q q' hq
          · rintro rfl; rw [hp] at hq; cases hq
      · rename_i hp
        cases h
        exact ⟨.rfl' rfl, fun c hl hg => absurd hg (noGroup (by rw [hp]; simp) (by rw [hp]; simp) c hl)⟩
      · rename_i q hp
        obtain ⟨h1, h2⟩ := ih q s r s' hs h
        refine ⟨h1, fun c hl hg => ?_⟩
        rcases hl with hl | ⟨q', hq', hS⟩
        · have he := (hfiled.whole p c hl).1
          rw [hp] at he
          cases ho : heap c <;> rw [ho] at he <;> simp [Obj.entry] at he
        · rw [hp] at hq'
          cases hq'
          exact h2 c (.inl hS) hg
      · rename_i a hp
        cases h
        exact ⟨.rfl' rfl, fun c hl hg => absurd hg (noGroup (by rw [hp]; simp) (by rw [hp]; simp) c hl)⟩
      · rename_i a hp
        cases h
        exact ⟨.rfl' rfl, fun c hl hg => absurd hg (noGroup (by rw [hp]; simp) (by rw [hp]; simp) c hl)⟩
      · cases h

theorem readReserved_plain (reserved : List (String × Nat)) (file : List (Path × Entry α)) (s : RState α)
    (h : ∀ p e, (p, e) ∈ file → e ≠ Entry.reserved) : readReserved reserved file s = .ok s := by
  induction file with
  | nil => rfl
  | cons pe file ih =>
    obtain ⟨p, e⟩ := pe
    have he := h p e (by simp)
    have := ih fun p e hm => h p e (by simp [hm])
    unfold readReserved
    split
    · simp_all
    · rename_i heq; cases heq; exact absurd rfl he
    · rename_i heq; cases heq; exact this

end

/-- C55 is false for every cycle of instances and tuples: a graph that contains one (`C` are the objects on it) is
saved or not, but a file with it cannot be loaded, with no recursion limit. -/
theorem instance_cycles_refuted (addr : ν → Nat) (haddr : Function.Injective addr) (heap : ν → Obj ν α) (C : ν → Prop)
    (hbuilt : ∀ x, C x → IsBuilt (heap x)) (hcyc : ∀ x, C x → ∃ c, c ∈ (heap x).members ∧ C c)
    (name : String) (x z : ν) (hreach : Reaches heap x z) (hz : C z) (limit : Nat) (file : List (Path × Entry α))
    (hsave : save addr heap limit name x [] = .ok file)
    (order : List String → List String) (horder : ∀ l, (order l).Perm l)
    (objects : List (Obj Nat α)) (reserved : List (String × Nat)) (limit' : Nat) :
    ∃ e, load order limit' file objects reserved = .error e := by
  cases hw : write addr heap limit [name] x ⟨[], []⟩ with
  | error e => simp [save, writeReserved, hw] at hsave
  | ok s =>
    obtain rfl : s.file = file := by simpa [save, writeReserved, hw] using hsave
    obtain ⟨S, h1, h2⟩ := write_adds haddr limit [name] x ⟨[], []⟩ s (fun _ _ => False) (by simp) hw
    have hfiled : Filed heap s.file S := ⟨fun p y hy => (h1.new p y hy).resolve_left id⟩
    have hr := readReserved_plain reserved s.file ⟨objects, []⟩ (h1.plain (by simp))
    unfold load
    rw [hr]
    dsimp only
    cases hl : readAll (read order s.file limit') [] (order (rootKeys s.file)) ⟨objects, []⟩ with
    | error e => exact ⟨e, rfl⟩
    | ok rs =>
      exfalso
      obtain ⟨rs, s'⟩ := rs
      have hroot : name ∈ order (rootKeys s.file) := by
        rw [(horder _).mem_iff, mem_rootKeys]
        rcases h2 with h2 | ⟨q, h2, _⟩
        · rw [(hfiled.whole _ _ h2).1]; simp
        · rw [h2]; simp
      have hzg : IsGroup (heap z) := by
        have := hbuilt z hz
        cases ho : heap z <;> rw [ho] at this <;> simp_all [IsBuilt, IsGroup]
      have hgroup : ∀ {x z}, Reaches heap x z → IsGroup (heap z) → IsGroup (heap x) := by
        intro x z h hg
        cases h with
        | refl => exact hg
        | step hm _ => exact isGroup_of_member hm
      obtain ⟨h3, h4⟩ := readAll_loads (heap := heap) (S := S) (read_loads hfiled horder limit') [] _ _ _ _ (by simp) hl
      have hx := h4 name hroot x h2 (hgroup hreach hzg)
      have hall : ∀ {x z}, Reaches heap x z → IsGroup (heap z) → Loaded S s' x → Loaded S s' z := by
        intro x z h hg
        induction h with
        | refl => exact id
        | step hm h ih =>
          rintro ⟨q, hq, hd⟩
          exact ih hg (h3.new q _ hq hd (by simp) _ hm (hgroup h hg))
      obtain ⟨q, hq, hd⟩ := hall hreach hzg hx
      exact hd ((readAll_cycle (read_cycle hfiled horder hbuilt hcyc limit') [] _ _ (by simp)).2 _ _ hl q
        ⟨z, hz, .inl hq⟩)

/-- Two instances that contain each other through a tuple, in a dict. -/
def partners : Fin 4 → Obj (Fin 4) Nat :=
  ![.dict [("first", 1)], .inst "A" [("other", 2)], .tuple [3], .inst "B" [("other", 1)]]

/-- The hypotheses are met: this graph is saved. -/
example : ∃ file, save (fun x : Fin 4 => x.val) partners 10 "x" 0 [] = .ok file ∧
    ∀ objects reserved limit', ∃ e, load id limit' file objects reserved = .error e := by
  refine ⟨_, rfl, fun objects reserved limit' => ?_⟩
  exact instance_cycles_refuted (fun x : Fin 4 => x.val) Fin.val_injective partners (fun x => x = 1 ∨ x = 2 ∨ x = 3)
    (fun x h => by rcases h with rfl | rfl | rfl <;> simp [partners, IsBuilt])
    (fun x h => by rcases h with rfl | rfl | rfl <;> simp [partners, Obj.members]) "x" 0 1
    (.step (by simp [partners, Obj.members]) (.refl _)) (.inl rfl) 10 _ rfl id (fun l => .refl l) objects reserved limit'

end Qtune.Storage
