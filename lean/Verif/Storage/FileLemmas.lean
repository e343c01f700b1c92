import Verif.Storage.ReadLemmas

/-! # Saving and loading a whole file -/

namespace Qtune.Storage

variable {ν α : Type}

/-- The state after the reserved objects. -/
structure AfterReserved (addr : ν → Nat) (reserved : List (String × ν)) (s : WState α) : Prop where
  file : ∀ q e, s.file.lookup q = some e ↔ e = .reserved ∧ ∃ k x, (k, x) ∈ reserved ∧ q = [k]
  ser : ∀ a q, s.ser.lookup a = some q → ∃ k x, (k, x) ∈ reserved ∧ addr x = a ∧ q = [k]
  res : ∀ k x, (k, x) ∈ reserved → s.ser.lookup (addr x) ≠ none

theorem writeReserved_ok (addr : ν → Nat) :
    ∀ (rest done : List (String × ν)) (s : WState α), AfterReserved addr done s →
      ((done ++ rest).map Prod.fst).Nodup →
      ∃ s', writeReserved (rest.map fun c => (c.1, addr c.2)) s = .ok s' ∧
        AfterReserved addr (done ++ rest) s' := by
  intro rest
  induction rest with
  | nil => intro done s h _; exact ⟨s, rfl, by simpa using h⟩
  | cons kx rest ih =>
    intro done s h hnd
    obtain ⟨k, x⟩ := kx
    have hk : s.file.lookup [k] = none := by
      cases he : s.file.lookup [k] with
      | none => rfl
      | some e =>
        obtain ⟨-, k', x', h1, h2⟩ := (h.file _ _).1 he
        simp only [List.cons.injEq, and_true] at h2
        subst h2
        rw [List.map_append, List.nodup_append] at hnd
        exact absurd rfl (hnd.2.2 k (List.mem_map.2 ⟨_, h1, rfl⟩) k (by simp))
    have hp : s.put [k] .reserved = .ok { s with file := ([k], .reserved) :: s.file } := by
      unfold WState.put
      rw [hk]
    have hnext : AfterReserved addr (done ++ [(k, x)])
        (WState.register (addr x) [k] { s with file := ([k], .reserved) :: s.file }) := by
      constructor
      · intro q e
        show (([k], Entry.reserved) :: s.file).lookup q = some e ↔ _
        rw [put_lookup]
        split
        · rename_i hq
          subst hq
          constructor
          · intro h'
            cases h'
            exact ⟨rfl, k, x, by simp, rfl⟩
          · rintro ⟨rfl, -⟩
            rfl
        · rename_i hq
          rw [h.file]
          constructor
          · rintro ⟨h1, k', x', h2, h3⟩
            exact ⟨h1, k', x', by simp [h2], h3⟩
          · rintro ⟨h1, k', x', h2, h3⟩
            rcases List.mem_append.1 h2 with h2 | h2
            · exact ⟨h1, k', x', h2, h3⟩
            · simp only [List.mem_singleton, Prod.mk.injEq] at h2
              rw [h2.1] at h3
              exact absurd h3 hq
      · intro a q h'
        rw [register_lookup] at h'
        split at h'
        · rename_i ha
          cases h'
          exact ⟨k, x, by simp, ha.symm, rfl⟩
        · obtain ⟨k', x', h1, h2⟩ := h.ser a q h'
          exact ⟨k', x', by simp [h1], h2⟩
      · intro k' x' h'
        rw [register_lookup]
        split
        · simp
        · rename_i hne
          rcases List.mem_append.1 h' with h' | h'
          · exact h.res k' x' h'
          · simp only [List.mem_singleton, Prod.mk.injEq] at h'
            rw [h'.2] at hne
            exact absurd rfl hne
    obtain ⟨s', h1, h2⟩ := ih (done ++ [(k, x)]) _ hnext (by simpa using hnd)
    refine ⟨s', ?_, by simpa using h2⟩
    simp only [List.map_cons, writeReserved, hp]
    exact h1

/-- The names at the top of a file whose entries are all below the root. -/
theorem mem_rootKeys {file : List (Path × Entry α)} {k : String} :
    k ∈ rootKeys file ↔ file.lookup [k] ≠ none := by
  induction file with
  | nil => simp [rootKeys]
  | cons qe file ih =>
    obtain ⟨q, e⟩ := qe
    rw [put_lookup (s := ⟨file, []⟩)]
    match q with
    | [] => simp [rootKeys, ih]
    | [k'] =>
      simp only [rootKeys, List.mem_cons, ih, List.cons.injEq, and_true]
      by_cases h : k = k' <;> simp [h]
    | k' :: k'' :: q => simp [rootKeys, ih]

/-- No path occurs twice. -/
def PathsNodup (file : List (Path × Entry α)) : Prop := (file.map Prod.fst).Nodup

theorem rootKeys_nodup {file : List (Path × Entry α)} (h : PathsNodup file) : (rootKeys file).Nodup := by
  induction file with
  | nil => simp [rootKeys]
  | cons qe file ih =>
    obtain ⟨q, e⟩ := qe
    unfold PathsNodup at h
    rw [List.map_cons, List.nodup_cons] at h
    match q with
    | [] => exact ih h.2
    | [k] =>
      simp only [rootKeys]
      refine List.nodup_cons.2 ⟨?_, ih h.2⟩
      rw [mem_rootKeys]
      intro hc
      apply h.1
      cases he : file.lookup [k] with
      | none => exact absurd he hc
      | some e' =>
        have := List.lookup_eq_some_iff.1 he
        obtain ⟨l₁, l₂, h1, -⟩ := this
        rw [h1]
        simp
    | k :: k' :: q => exact ih h.2

theorem put_nodup {s s' : WState α} {p : Path} {e : Entry α} (h : s.put p e = .ok s')
    (hn : PathsNodup s.file) : PathsNodup s'.file := by
  unfold WState.put at h
  split at h
  · cases h
  · rename_i hl
    cases h
    unfold PathsNodup
    rw [List.map_cons, List.nodup_cons]
    refine ⟨?_, hn⟩
    intro hm
    obtain ⟨⟨q, e'⟩, h1, rfl⟩ := List.mem_map.1 hm
    have := List.lookup_eq_none_iff.1 hl _ h1
    simp at this

theorem writeAll_nodup {w : Path → ν → WState α → Except PyErr (WState α)}
    (hw : ∀ p x s s', w p x s = .ok s' → PathsNodup s.file → PathsNodup s'.file) (p : Path) :
    ∀ items s s', writeAll w p items s = .ok s' → PathsNodup s.file → PathsNodup s'.file := by
  intro items
  induction items with
  | nil => intro s s' h hn; cases h; exact hn
  | cons kc items ih =>
    obtain ⟨k, c⟩ := kc
    intro s s' h hn
    unfold writeAll at h
    split at h
    · cases h
    · rename_i s₁ h1
      exact ih s₁ s' h (hw _ _ _ _ h1 hn)

theorem write_nodup (addr : ν → Nat) (heap : ν → Obj ν α) (n : Nat) :
    ∀ p x s s', write addr heap n p x s = .ok s' → PathsNodup s.file → PathsNodup s'.file := by
  induction n with
  | zero => intro p x s s' h; cases h
  | succ n ih =>
    intro p x s s' h hn
    unfold write at h
    split at h
    · exact put_nodup h hn
    · split at h
      all_goals first
        | exact put_nodup h hn
        | cases h; done
        | skip
      all_goals
        split at h
        · cases h
        · rename_i s₁ h1
          have hn₁ := put_nodup h1 hn
          first
            | exact writeAll_nodup ih _ _ _ _ h hn₁
            | (cases h; exact hn₁)
            | (split at h
               · cases h
               · rename_i s₂ h2
                 cases h
                 exact (writeAll_nodup ih _ _ _ s₂ h2 hn₁ : PathsNodup s₂.file))

theorem writeReserved_nodup : ∀ (rest : List (String × Nat)) (s s' : WState α),
    writeReserved rest s = .ok s' → PathsNodup s.file → PathsNodup s'.file := by
  intro rest
  induction rest with
  | nil => intro s s' h hn; cases h; exact hn
  | cons ka rest ih =>
    obtain ⟨k, a⟩ := ka
    intro s s' h hn
    unfold writeReserved at h
    split at h
    · cases h
    · rename_i s₁ h1
      exact ih _ s' h (show PathsNodup s₁.file from put_nodup h1 hn)

theorem put_keeps {c : Path × Entry α} {s s' : WState α} {p : Path} {e : Entry α} (h : s.put p e = .ok s')
    (hc : c ∈ s.file) : c ∈ s'.file := by
  unfold WState.put at h
  split at h
  · cases h
  · cases h; exact List.mem_cons_of_mem _ hc

theorem writeAll_keeps {c : Path × Entry α} {w : Path → ν → WState α → Except PyErr (WState α)}
    (hw : ∀ p x s s', w p x s = .ok s' → c ∈ s.file → c ∈ s'.file) (p : Path) :
    ∀ items s s', writeAll w p items s = .ok s' → c ∈ s.file → c ∈ s'.file := by
  intro items
  induction items with
  | nil => intro s s' h hn; cases h; exact hn
  | cons kc items ih =>
    obtain ⟨k, c⟩ := kc
    intro s s' h hn
    unfold writeAll at h
    split at h
    · cases h
    · rename_i s₁ h1
      exact ih s₁ s' h (hw _ _ _ _ h1 hn)

/-- Entries of a file stay. -/
theorem write_keeps {c : Path × Entry α} (addr : ν → Nat) (heap : ν → Obj ν α) (n : Nat) :
    ∀ p x s s', write addr heap n p x s = .ok s' → c ∈ s.file → c ∈ s'.file := by
  induction n with
  | zero => intro p x s s' h; cases h
  | succ n ih =>
    intro p x s s' h hn
    unfold write at h
    split at h
    · exact put_keeps h hn
    · split at h
      all_goals first
        | exact put_keeps h hn
        | cases h; done
        | skip
      all_goals
        split at h
        · cases h
        · rename_i s₁ h1
          have hn₁ := put_keeps h1 hn
          first
            | exact writeAll_keeps ih _ _ _ _ h hn₁
            | (cases h; exact hn₁)
            | (split at h
               · cases h
               · rename_i s₂ h2
                 cases h
                 exact (writeAll_keeps ih _ _ _ s₂ h2 hn₁ : c ∈ s₂.file))

theorem writeReserved_mem : ∀ (rest : List (String × Nat)) (s s' : WState α),
    writeReserved rest s = .ok s' → (∀ c ∈ s.file, c ∈ s'.file) ∧
      ∀ k, k ∈ rest.map Prod.fst → ([k], Entry.reserved) ∈ s'.file := by
  intro rest
  induction rest with
  | nil => intro s s' h; cases h; exact ⟨fun _ h => h, by simp⟩
  | cons ka rest ih =>
    obtain ⟨k, a⟩ := ka
    intro s s' h
    unfold writeReserved at h
    split at h
    · cases h
    · rename_i s₁ h1
      obtain ⟨h2, h3⟩ := ih _ s' h
      refine ⟨fun c hc => h2 c (show c ∈ s₁.file from put_keeps h1 hc), fun k' hk' => ?_⟩
      rcases List.mem_cons.1 hk' with rfl | hk'
      · refine h2 _ ?_
        unfold WState.put at h1
        split at h1
        · cases h1
        · cases h1; exact List.mem_cons_self
      · exact h3 k' hk'

theorem readReserved_missing {given : List (String × Nat)} {k : String} (hk : given.lookup k = none) :
    ∀ (file : List (Path × Entry α)) (s : RState α), ([k], Entry.reserved) ∈ file →
      readReserved given file s = .error .keyError := by
  intro file
  induction file with
  | nil => intro s h; simp at h
  | cons c file ih =>
    intro s h
    unfold readReserved
    split
    · rename_i h0; cases h0
    · rename_i k' file' h0
      cases h0
      rcases List.mem_cons.1 h with h' | h'
      · cases h'; rw [hk]
      · split
        · rfl
        · exact ih _ h'
    · rename_i file' hne h0
      cases h0
      rcases List.mem_cons.1 h with h' | h'
      · subst h'; exact absurd rfl (hne k)
      · exact ih _ h'

theorem readReserved_ok {given : List (String × Nat)} :
    ∀ (file : List (Path × Entry α)) (s : RState α),
      (∀ k, ([k], Entry.reserved) ∈ file → given.lookup k ≠ none) →
      ∃ s', readReserved given file s = .ok s' ∧ s'.heap = s.heap ∧
        (∀ q r, s'.deser.lookup q = some r → s.deser.lookup q = some r ∨
          ∃ k, q = [k] ∧ ([k], Entry.reserved) ∈ file ∧ given.lookup k = some r) ∧
        (∀ k r, ([k], Entry.reserved) ∈ file → given.lookup k = some r → s'.deser.lookup [k] = some r) ∧
        (∀ q r, s.deser.lookup q = some r → (∀ k, q = [k] → given.lookup k = some r) →
          s'.deser.lookup q = some r) := by
  intro file
  induction file with
  | nil => intro s _; exact ⟨s, rfl, rfl, fun _ _ h => Or.inl h, fun _ _ h => by simp at h, fun _ _ h _ => h⟩
  | cons qe file ih =>
    intro s hg
    obtain ⟨q, e⟩ := qe
    have hskip : ¬ (∃ k, q = [k] ∧ e = .reserved) →
        readReserved given ((q, e) :: file) s = readReserved given file s := by
      intro h
      match q, e with
      | [], e => cases e <;> rfl
      | [k], .reserved => exact absurd ⟨k, rfl, rfl⟩ h
      | [k], .group _ _ => rfl
      | [k], .array _ => rfl
      | [k], .labelled _ => rfl
      | [k], .scalar _ => rfl
      | [k], .none => rfl
      | [k], .ref _ => rfl
      | _ :: _ :: _, e => cases e <;> rfl
    by_cases h : ∃ k, q = [k] ∧ e = .reserved
    · obtain ⟨k, rfl, rfl⟩ := h
      cases hk : given.lookup k with
      | none => exact absurd hk (hg k (by simp))
      | some r =>
        obtain ⟨s', h1, h2, h3, h4, h5⟩ := ih (s.register [k] r) fun k' hk' => hg k' (by simp [hk'])
        refine ⟨s', ?_, h2, ?_, ?_, ?_⟩
        · simp only [readReserved, hk, h1]
        · intro q r' hq
          rcases h3 q r' hq with h6 | ⟨k', h6, h7, h8⟩
          · rw [deser_lookup] at h6
            split at h6
            · rename_i hq'
              cases h6
              exact Or.inr ⟨k, hq', by simp, hk⟩
            · exact Or.inl h6
          · exact Or.inr ⟨k', h6, by simp [h7], h8⟩
        · intro k' r' hk' hr'
          rcases List.mem_cons.1 hk' with h6 | h6
          · simp only [Prod.mk.injEq, List.cons.injEq, and_true] at h6
            subst h6
            rw [hk] at hr'
            cases hr'
            refine h5 [k'] r (by rw [deser_lookup, if_pos rfl]) ?_
            intro k'' h7
            simp only [List.cons.injEq, and_true] at h7
            rw [← h7, hk]
          · exact h4 k' r' h6 hr'
        · intro q r' hq hall
          refine h5 q r' ?_ hall
          rw [deser_lookup]
          split
          · rename_i hq'
            have := hall k hq'
            rw [hk] at this
            exact this
          · exact hq
    · rw [hskip h]
      obtain ⟨s', h1, h2, h3, h4, h5⟩ := ih s fun k' hk' => hg k' (by simp [hk'])
      refine ⟨s', h1, h2, ?_, ?_, h5⟩
      · intro q' r hq
        rcases h3 q' r hq with h6 | ⟨k', h6, h7, h8⟩
        · exact Or.inl h6
        · exact Or.inr ⟨k', h6, by simp [h7], h8⟩
      · intro k' r hk' hr
        rcases List.mem_cons.1 hk' with h6 | h6
        · simp only [Prod.mk.injEq] at h6
          exact absurd ⟨k', h6.1.symm, h6.2.symm⟩ h
        · exact h4 k' r h6 hr

theorem lookup_of_mem_nodup {file : List (Path × Entry α)} (hn : PathsNodup file) {q : Path} {e : Entry α} :
    (q, e) ∈ file ↔ file.lookup q = some e := by
  constructor
  · intro h
    induction file with
    | nil => simp at h
    | cons qe file ih =>
      obtain ⟨q', e'⟩ := qe
      unfold PathsNodup at hn
      rw [List.map_cons, List.nodup_cons] at hn
      rw [put_lookup (s := ⟨file, []⟩)]
      rcases List.mem_cons.1 h with h1 | h1
      · simp only [Prod.mk.injEq] at h1
        rw [if_pos h1.1, h1.2]
      · rw [if_neg]
        · exact ih hn.2 h1
        · rintro rfl
          exact hn.1 (List.mem_map.2 ⟨_, h1, rfl⟩)
  · intro h
    obtain ⟨l₁, l₂, h1, -⟩ := List.lookup_eq_some_iff.1 h
    rw [h1]
    simp

theorem forall₂_mem_right {β γ : Type} {P : β → γ → Prop} {l : List β} {l' : List γ}
    (h : List.Forall₂ P l l') {b : γ} (hb : b ∈ l') : ∃ a, a ∈ l ∧ P a b := by
  induction h with
  | nil => simp at hb
  | @cons a c l l' h _ ih =>
    rcases List.mem_cons.1 hb with rfl | hb
    · exact ⟨a, by simp, h⟩
    · obtain ⟨d, h1, h2⟩ := ih hb
      exact ⟨d, by simp [h1], h2⟩

/-- Saving and loading, for the objects and reserved objects of one file. -/
theorem save_load {addr : ν → Nat} (haddr : Function.Injective addr) {heap : ν → Obj ν α}
    {rank : ν → Nat} {reserved : List (String × ν)} {name : String} {x : ν}
    (hst : ∀ x, (∀ k, (k, x) ∉ reserved) →
      Storable (heap x) ∧ ∀ c, c ∈ (heap x).members → rank c < rank x)
    (hkeys : (reserved.map Prod.fst).Nodup) (hname : name ∉ reserved.map Prod.fst)
    {order : List String → List String} (horder : ∀ l, (order l).Perm l)
    {limit : Nat} (hlimit : 2 * rank x + 2 ≤ limit) {before : List (Obj Nat α)}
    {given : List (String × Nat)}
    (hgiven : ∀ k, k ∈ reserved.map Prod.fst → given.lookup k ≠ none) :
    ∃ file items after R, save addr heap limit name x (reserved.map fun c => (c.1, addr c.2)) = .ok file ∧
      load order limit file before given = .ok (items, after) ∧
      IsCopy heap before after (fun y r => ∃ k, (k, y) ∈ reserved ∧ given.lookup k = some r)
        (fun y => ∃ k, (k, y) ∈ reserved) R ∧
      (∀ y r r', R y r → R y r' → (¬ ∃ k, (k, y) ∈ reserved) → Memo (heap y) → r = r') ∧
      (items.map Prod.fst).Perm (name :: reserved.map Prod.fst) ∧
      (∀ k r y, (k, r) ∈ items → (k, y) ∈ (name, x) :: reserved → R y r) := by
  obtain ⟨s₀, hw₀, ha⟩ := writeReserved_ok (α := α) addr reserved [] ⟨[], []⟩
    ⟨fun q e => by simp, fun a q => by simp, fun k x => by simp⟩ (by simpa using hkeys)
  rw [List.nil_append] at ha
  set Res : ν → Prop := fun y => ∃ k, (k, y) ∈ reserved with hRes
  have hg₀ : Good addr Res s₀ := by
    refine ⟨?_, ?_, ?_⟩
    · intro a q h
      obtain ⟨k, y, h1, -, h2⟩ := ha.ser a q h
      rw [(ha.file q .reserved).2 ⟨rfl, k, y, h1, h2⟩]
      simp
    · intro a b q h h'
      obtain ⟨k, y, h1, h2, h3⟩ := ha.ser a q h
      obtain ⟨k', y', h1', h2', h3'⟩ := ha.ser b q h'
      rw [h3] at h3'
      simp only [List.cons.injEq, and_true] at h3'
      subst h3'
      have := List.inj_on_of_nodup_map hkeys h1 h1' rfl
      simp only [Prod.mk.injEq, true_and] at this
      rw [← h2, ← h2', this]
    · rintro y ⟨k, hk⟩
      exact ha.res k y hk
  have hfresh : Fresh s₀ [name] := by
    intro q hq
    cases he : s₀.file.lookup q with
    | none => rfl
    | some e =>
      obtain ⟨-, k, y, h1, rfl⟩ := (ha.file q e).1 he
      have := hq.eq_of_length rfl
      simp only [List.cons.injEq, and_true] at this
      subst this
      exact absurd (List.mem_map.2 ⟨_, h1, rfl⟩) hname
  have hst' : ∀ y, ¬ Res y → Storable (heap y) ∧ ∀ c, c ∈ (heap y).members → rank c < rank y :=
    fun y hy => hst y fun k hk => hy ⟨k, hk⟩
  obtain ⟨W, hw, hg, hext, hslot⟩ := write_spec haddr hst' limit [name] x s₀ (by omega) hg₀ hfresh
  have hnd : PathsNodup W.file :=
    write_nodup addr heap limit _ _ _ _ hw (writeReserved_nodup _ _ _ hw₀ (by simp [PathsNodup]))
  have hW : Whole addr heap Res W := by
    refine ⟨hg, fun a q h => ?_⟩
    rcases hext.ser_new a q h with h1 | ⟨-, y, h1, h2, -, h3⟩
    · obtain ⟨k, y, h2, h3, h4⟩ := ha.ser a q h1
      exact Or.inl ⟨y, h3, ⟨k, h2⟩, hext.file_mono _ _ ((ha.file q .reserved).2 ⟨rfl, k, y, h2, h4⟩)⟩
    · exact Or.inr ⟨y, h1, h2, h3⟩
  -- the entries at the top
  have hroot : ∀ k, W.file.lookup [k] ≠ none ↔ k = name ∨ k ∈ reserved.map Prod.fst := by
    intro k
    constructor
    · intro h
      cases he : W.file.lookup [k] with
      | none => exact absurd he h
      | some e =>
        rcases hext.file_new _ _ he with h1 | h1
        · obtain ⟨-, k', y, h2, h3⟩ := (ha.file _ _).1 h1
          simp only [List.cons.injEq, and_true] at h3
          subst h3
          exact Or.inr (List.mem_map.2 ⟨_, h2, rfl⟩)
        · have := h1.eq_of_length rfl
          simp only [List.cons.injEq, and_true] at this
          exact Or.inl this.symm
    · rintro (rfl | h)
      · rcases hslot with ⟨q, h1, -⟩ | ⟨-, h1, -⟩ <;> rw [h1] <;> simp
      · obtain ⟨⟨k', y⟩, h1, rfl⟩ := List.mem_map.1 h
        rw [hext.file_mono _ _ ((ha.file [k'] .reserved).2 ⟨rfl, k', y, h1, rfl⟩)]
        simp
  have hresfile : ∀ k, ([k], Entry.reserved) ∈ W.file ↔ k ∈ reserved.map Prod.fst := by
    intro k
    rw [lookup_of_mem_nodup hnd]
    constructor
    · intro h
      rcases (hroot k).1 (by rw [h]; simp) with rfl | h1
      · rcases hslot with ⟨q, h1, -⟩ | ⟨-, h1, -⟩
        · rw [h1] at h; cases h
        · rw [h1] at h
          cases ho : heap x <;> rw [ho] at h <;> simp [Obj.entry] at h
      · exact h1
    · intro h
      obtain ⟨⟨k', y⟩, h1, rfl⟩ := List.mem_map.1 h
      exact hext.file_mono _ _ ((ha.file [k'] .reserved).2 ⟨rfl, k', y, h1, rfl⟩)
  obtain ⟨r₀, hr₀, hheap, hd1, hd2, -⟩ := readReserved_ok (given := given) W.file ⟨before, []⟩
    fun k hk => hgiven k ((hresfile k).1 hk)
  set gv : ν → Nat → Prop := fun y r => ∃ k, (k, y) ∈ reserved ∧ given.lookup k = some r with hgv
  set D : Path → Nat → Prop := fun q r => ∃ k, q = [k] ∧ k ∈ reserved.map Prod.fst ∧ given.lookup k = some r
    with hD
  have hinv : RInv addr heap Res W before.length gv D r₀ gv := by
    constructor
    · intro q r h
      rcases hd1 q r h with h1 | ⟨k, rfl, h1, -⟩
      · simp at h1
      · exact Or.inl ((lookup_of_mem_nodup hnd).1 h1)
    · intro y r h _; exact h
    · rintro y ⟨k, hk⟩
      cases hq : s₀.ser.lookup (addr y) with
      | none => exact absurd hq (ha.res k y hk)
      | some q =>
        obtain ⟨k', y', h1, h2, h3⟩ := ha.ser _ q hq
        have hyy := haddr h2
        subst hyy
        have hk' : k' ∈ reserved.map Prod.fst := List.mem_map.2 ⟨_, h1, rfl⟩
        cases hr : given.lookup k' with
        | none => exact absurd hr (hgiven k' hk')
        | some r =>
          refine ⟨q, r, hext.ser_mono _ _ hq, ?_, k', h1, hr⟩
          rw [h3]
          exact hd2 k' r ((hresfile k').2 hk') hr
    · rintro y r q ⟨k, hk, -⟩ hy
      exact absurd ⟨k, hk⟩ hy
    · rintro y r ⟨k, hk, -⟩ hy
      exact absurd ⟨k, hk⟩ hy
    · rintro y r ⟨k, hk, -⟩ hy
      exact absurd ⟨k, hk⟩ hy
    · rintro y z r hy _ ⟨k, hk, -⟩
      exact absurd ⟨k, hk⟩ hy
    · rw [hheap]
    · rintro q r ⟨k, rfl, h1, h2⟩
      exact hd2 k r ((hresfile k).2 h1) h2
    · exact fun y r h => h
  have hperm : (order (rootKeys W.file)).Perm (name :: reserved.map Prod.fst) := by
    refine (horder _).trans ((List.perm_ext_iff_of_nodup (rootKeys_nodup hnd) ?_).2 ?_)
    · exact List.nodup_cons.2 ⟨hname, hkeys⟩
    · intro k
      rw [mem_rootKeys, hroot k, List.mem_cons]
  obtain ⟨cs, hcs, hcskeys⟩ := perm_map_exists Prod.fst hperm ((name, x) :: reserved) rfl
  have hlim : 1 ≤ limit := by omega
  have hreads : ∀ k c, (k, c) ∈ cs →
      ReadsAt addr heap rank Res W before.length gv D (rank x + 1) (read order W.file limit) ([] ++ [k]) c := by
    intro k c hkc
    rcases List.mem_cons.1 (hcs.mem_iff.1 hkc) with h | h
    · cases h
      exact (read_spec haddr hW hst' horder limit).2 [name] x hslot hlimit
    · intro s R hi
      have hk : k ∈ reserved.map Prod.fst := List.mem_map.2 ⟨_, h, rfl⟩
      cases hr : given.lookup k with
      | none => exact absurd hr (hgiven k hk)
      | some r =>
        have hd := hi.keep [k] r ⟨k, rfl, hk, hr⟩
        obtain ⟨m, rfl⟩ : ∃ m, limit = m + 1 := ⟨limit - 1, by omega⟩
        exact ⟨r, s, R, by simp only [List.nil_append, read, hd], Reads.refl hi, hi.all c r ⟨k, h, hr⟩⟩
  obtain ⟨rs, s₁, R, hra, hrd, hrs⟩ := readAll_spec [] cs hreads r₀ gv hinv
  rw [hcskeys] at hra
  refine ⟨W.file, rs, s₁.heap, R, ?_, ?_, ?_, ?_, ?_, ?_⟩
  · simp only [save, hw₀, hw]
  · simp only [load, hr₀, hra]
  · refine ⟨?_, ?_, ?_, ?_⟩
    · intro r o h
      exact hrd.heap_mono r o (by rw [hheap]; exact h)
    · intro y r h hy
      rcases hrd.new y r h with ⟨k, hk, -⟩ | ⟨-, h1, -, h2⟩
      · exact absurd ⟨k, hk⟩ hy
      · rw [hheap] at h1
        exact ⟨h1, h2⟩
    · exact fun y r h hy => hrd.inv.reserved y r h hy
    · exact fun y z r hy hz h h' => hrd.inv.inj y z r hy hz h h'
  · intro y r r' h h' hy hm
    obtain ⟨q, hq⟩ := hrd.inv.stored y r h hy hm
    have h1 := hrd.inv.memo y r q h hy hm hq
    rw [hrd.inv.memo y r' q h' hy hm hq] at h1
    exact (Option.some.inj h1).symm
  · have h1 : rs.map Prod.fst = cs.map Prod.fst := by
      clear hcs hreads hra hcskeys
      induction hrs with
      | nil => rfl
      | cons h _ ih => simp [h.1, ih]
    rw [h1]
    exact hcs.map _
  · intro k r y hr hy
    obtain ⟨⟨k', c⟩, hc, h1, h2⟩ := forall₂_mem_right hrs hr
    simp only at h1 h2
    subst h1
    have hnd' : (((name, x) :: reserved).map Prod.fst).Nodup := List.nodup_cons.2 ⟨hname, hkeys⟩
    have := List.inj_on_of_nodup_map hnd' hy (hcs.mem_iff.1 hc) rfl
    simp only [Prod.mk.injEq, true_and] at this
    rw [this]
    exact h2

end Qtune.Storage
