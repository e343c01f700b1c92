import Verif.Storage.Spec
import Mathlib.Logic.Function.Basic
import Mathlib.Data.List.Nodup
import Mathlib.Data.List.Infix

/-! # What is in the file after saving -/

namespace Qtune.Storage

variable {ν α : Type}

/-- The members with their names in the file. -/
def Obj.children : Obj ν α → List (String × ν)
  | .dict items => items
  | .list items => enumerate items
  | .tuple items => enumerate items
  | .inst _ kwargs => kwargs
  | _ => []

/-- The entry for an object that is stored for the first time. -/
def Obj.entry : Obj ν α → Entry α
  | .dict items => .group .dict (items.map Prod.fst)
  | .list items => .group .list ((enumerate items).map Prod.fst)
  | .tuple items => .group .tuple ((enumerate items).map Prod.fst)
  | .inst cls kwargs => .group (.inst cls) (kwargs.map Prod.fst)
  | .array a => .array a
  | .labelled a => .labelled a
  | .scalar a => .scalar a
  | .none => .none
  | .other => .none

/-- Objects that are not registered when they are written. -/
def Obj.isScalar : Obj ν α → Prop
  | .scalar _ => True
  | _ => False

theorem toString_injective {i j : Nat} (h : toString i = toString j) : i = j := by
  rw [Nat.toString_eq_ofList_toDigits, Nat.toString_eq_ofList_toDigits] at h
  have h1 := String.ofList_injective h
  have h2 := Nat.ofDigitChars_ten_toDigits (n := i)
  rw [h1, Nat.ofDigitChars_ten_toDigits] at h2
  exact h2.symm

theorem enumerate_keys (items : List ν) : (enumerate items).map Prod.fst = indices items.length := by
  unfold enumerate indices
  rw [List.map_map]
  apply List.ext_getElem <;> simp

theorem enumerate_nodup (items : List ν) : ((enumerate items).map Prod.fst).Nodup := by
  rw [enumerate_keys]
  unfold indices
  exact List.Nodup.map (fun i j h => toString_injective h) List.nodup_range

theorem children_nodup {o : Obj ν α} (h : Storable o) : (o.children.map Prod.fst).Nodup := by
  cases o <;> first | exact h | exact enumerate_nodup _ | exact List.nodup_nil

theorem enumerate_snd (items : List ν) : (enumerate items).map Prod.snd = items := by
  unfold enumerate
  rw [List.map_map]
  apply List.ext_getElem <;> simp

theorem children_members (o : Obj ν α) : o.children.map Prod.snd = o.members := by
  cases o <;> first | rfl | exact enumerate_snd _

section

variable (addr : ν → Nat) (heap : ν → Obj ν α) (rank : ν → Nat) (Res : ν → Prop)

/-- `x` is stored at `p` itself. -/
structure Here (s : WState α) (p : Path) (x : ν) : Prop where
  entry : s.file.lookup p = some (heap x).entry
  ser : ¬ (heap x).isScalar → s.ser.lookup (addr x) = some p

/-- `x` is stored at `p`, or there is a reference to the place where it is. -/
def Slot (s : WState α) (p : Path) (x : ν) : Prop :=
  (∃ q, s.file.lookup p = some (.ref q) ∧ s.ser.lookup (addr x) = some q) ∨
    (¬ Res x ∧ Here addr heap s p x)

/-- `x` is stored at `p` with all its members. -/
structure Complete (s : WState α) (p : Path) (x : ν) : Prop where
  here : Here addr heap s p x
  members : ∀ k c, (k, c) ∈ (heap x).children → Slot addr heap Res s (p ++ [k]) c

/-- Nothing is stored at `p` or below. -/
def Fresh (s : WState α) (p : Path) : Prop := ∀ q, p <+: q → s.file.lookup q = none

structure Good (s : WState α) : Prop where
  stored : ∀ a q, s.ser.lookup a = some q → s.file.lookup q ≠ none
  inj : ∀ a b q, s.ser.lookup a = some q → s.ser.lookup b = some q → a = b
  res : ∀ x, Res x → s.ser.lookup (addr x) ≠ none

/-- `s'` extends `s`; only paths in `P` are new, and the new registered objects have rank below `m` and
are complete. -/
structure Ext (P : Path → Prop) (m : Nat) (s s' : WState α) : Prop where
  file_mono : ∀ q e, s.file.lookup q = some e → s'.file.lookup q = some e
  file_new : ∀ q e, s'.file.lookup q = some e → s.file.lookup q = some e ∨ P q
  ser_mono : ∀ a q, s.ser.lookup a = some q → s'.ser.lookup a = some q
  ser_new : ∀ a q, s'.ser.lookup a = some q → s.ser.lookup a = some q ∨
    (P q ∧ ∃ y, addr y = a ∧ ¬ Res y ∧ rank y < m ∧ Complete addr heap Res s' q y)

variable {addr heap rank Res}

theorem Slot.mono {s s' : WState α} {p : Path} {x : ν} (h : Slot addr heap Res s p x)
    (hf : ∀ q e, s.file.lookup q = some e → s'.file.lookup q = some e)
    (hs : ∀ a q, s.ser.lookup a = some q → s'.ser.lookup a = some q) : Slot addr heap Res s' p x := by
  rcases h with ⟨q, h1, h2⟩ | ⟨hr, h1, h2⟩
  · exact Or.inl ⟨q, hf _ _ h1, hs _ _ h2⟩
  · exact Or.inr ⟨hr, hf _ _ h1, fun h => hs _ _ (h2 h)⟩

theorem Complete.mono {s s' : WState α} {p : Path} {x : ν} (h : Complete addr heap Res s p x)
    (hf : ∀ q e, s.file.lookup q = some e → s'.file.lookup q = some e)
    (hs : ∀ a q, s.ser.lookup a = some q → s'.ser.lookup a = some q) : Complete addr heap Res s' p x :=
  ⟨⟨hf _ _ h.here.entry, fun hn => hs _ _ (h.here.ser hn)⟩, fun k c hc => (h.members k c hc).mono hf hs⟩

theorem Ext.refl (P : Path → Prop) (m : Nat) (s : WState α) : Ext addr heap rank Res P m s s :=
  ⟨fun _ _ h => h, fun _ _ h => Or.inl h, fun _ _ h => h, fun _ _ h => Or.inl h⟩

theorem Ext.trans {P P₁ P₂ : Path → Prop} {m m₁ m₂ : Nat} {s₁ s₂ s₃ : WState α}
    (h : Ext addr heap rank Res P₁ m₁ s₁ s₂) (h' : Ext addr heap rank Res P₂ m₂ s₂ s₃)
    (hP₁ : ∀ q, P₁ q → P q) (hP₂ : ∀ q, P₂ q → P q) (hm₁ : m₁ ≤ m) (hm₂ : m₂ ≤ m) :
    Ext addr heap rank Res P m s₁ s₃ where
  file_mono q e he := h'.file_mono q e (h.file_mono q e he)
  file_new q e he := by
    rcases h'.file_new q e he with h1 | h1
    · rcases h.file_new q e h1 with h2 | h2
      · exact Or.inl h2
      · exact Or.inr (hP₁ q h2)
    · exact Or.inr (hP₂ q h1)
  ser_mono a q ha := h'.ser_mono a q (h.ser_mono a q ha)
  ser_new a q ha := by
    rcases h'.ser_new a q ha with h1 | ⟨h1, y, hy, hr, hm, hc⟩
    · rcases h.ser_new a q h1 with h2 | ⟨h2, y, hy, hr, hm, hc⟩
      · exact Or.inl h2
      · exact Or.inr ⟨hP₁ q h2, y, hy, hr, by omega, hc.mono h'.file_mono h'.ser_mono⟩
    · exact Or.inr ⟨hP₂ q h1, y, hy, hr, by omega, hc⟩

theorem Ext.fresh {P : Path → Prop} {m : Nat} {s s' : WState α} (h : Ext addr heap rank Res P m s s')
    {p : Path} (hf : Fresh s p) (hP : ∀ q, p <+: q → ¬ P q) : Fresh s' p := by
  intro q hq
  cases he : s'.file.lookup q with
  | none => rfl
  | some e =>
    rcases h.file_new q e he with h1 | h1
    · rw [hf q hq] at h1; cases h1
    · exact absurd h1 (hP q hq)

theorem put_ok {s : WState α} {p : Path} (hf : Fresh s p) (e : Entry α) :
    s.put p e = .ok { s with file := (p, e) :: s.file } := by
  unfold WState.put
  rw [hf p (List.prefix_refl p)]

theorem put_lookup {s : WState α} {p : Path} (e : Entry α) (q : Path) :
    ((p, e) :: s.file).lookup q = if q = p then some e else s.file.lookup q := by
  rw [List.lookup_cons]
  by_cases h : q = p
  · subst h; simp
  · simp [h, beq_eq_false_iff_ne.2 h]

theorem put_good {s : WState α} {p : Path} (hg : Good addr Res s) (e : Entry α) :
    Good addr Res { s with file := (p, e) :: s.file } where
  stored a q h := by
    simp only [put_lookup]
    split
    · simp
    · exact hg.stored a q h
  inj := hg.inj
  res := hg.res

theorem put_ext {s : WState α} {p : Path} (hf : Fresh s p) (e : Entry α) (m : Nat) :
    Ext addr heap rank Res (p <+: ·) m s { s with file := (p, e) :: s.file } where
  file_mono q e' h := by
    simp only [put_lookup]
    split
    · rename_i hq
      subst hq
      rw [hf q (List.prefix_refl q)] at h
      cases h
    · exact h
  file_new q e' h := by
    simp only [put_lookup] at h
    split at h
    · rename_i hq
      subst hq
      exact Or.inr (List.prefix_refl q)
    · exact Or.inl h
  ser_mono a q h := h
  ser_new a q h := Or.inl h

theorem register_lookup {s : WState α} {a : Nat} {p : Path} (b : Nat) :
    (s.register a p).ser.lookup b = if b = a then some p else s.ser.lookup b := by
  unfold WState.register
  simp only [List.lookup_cons]
  by_cases h : b = a
  · subst h; simp
  · simp [h, beq_eq_false_iff_ne.2 h]

/-- Registering keeps the file good if the place is stored and not registered yet. -/
theorem register_good {s : WState α} {a : Nat} {p : Path} (hg : Good addr Res s)
    (hp : s.file.lookup p ≠ none) (hn : ∀ b, s.ser.lookup b ≠ some p) : Good addr Res (s.register a p) where
  stored b q h := by
    rw [register_lookup] at h
    split at h
    · cases h; exact hp
    · exact hg.stored b q h
  inj b c q h h' := by
    rw [register_lookup] at h h'
    split at h <;> split at h'
    · rename_i h1 h2; rw [h1, h2]
    · cases h; exact absurd h' (hn c)
    · cases h'; exact absurd h (hn b)
    · exact hg.inj b c q h h'
  res x hx := by
    rw [register_lookup]
    split
    · simp
    · exact hg.res x hx

theorem writeAll_spec {w : Path → ν → WState α → Except PyErr (WState α)} {M : Nat}
    (hw : ∀ p x s, rank x < M → Good addr Res s → Fresh s p → ∃ s', w p x s = .ok s' ∧ Good addr Res s' ∧
      Ext addr heap rank Res (p <+: ·) (rank x + 1) s s' ∧ Slot addr heap Res s' p x) (p : Path) :
    ∀ (items : List (String × ν)) (s : WState α), (items.map Prod.fst).Nodup →
      (∀ k c, (k, c) ∈ items → rank c < M) → Good addr Res s →
      (∀ k, k ∈ items.map Prod.fst → Fresh s (p ++ [k])) →
      ∃ s', writeAll w p items s = .ok s' ∧ Good addr Res s' ∧
        Ext addr heap rank Res (fun q => ∃ k, p ++ [k] <+: q) M s s' ∧
        (∀ k c, (k, c) ∈ items → Slot addr heap Res s' (p ++ [k]) c) ∧
        ∀ k, k ∉ items.map Prod.fst → Fresh s (p ++ [k]) → Fresh s' (p ++ [k]) := by
  have hdisj : ∀ {k k' : String} {q : Path}, p ++ [k] <+: q → p ++ [k'] <+: q → k = k' := by
    intro k k' q h h'
    have h1 := List.prefix_of_prefix_length_le h h' (by simp)
    have h2 := h1.eq_of_length (by simp)
    simpa using h2
  intro items
  induction items with
  | nil =>
    intro s _ _ hg _
    exact ⟨s, rfl, hg, Ext.refl _ _ _, fun _ _ h => absurd h (by simp), fun _ _ h => h⟩
  | cons kc items ih =>
    intro s hnd hr hg hf
    obtain ⟨k, c⟩ := kc
    rw [List.map_cons, List.nodup_cons] at hnd
    obtain ⟨s₁, h1, hg₁, he₁, hs₁⟩ := hw (p ++ [k]) c s (hr k c (by simp)) hg (hf k (by simp))
    have hf₁ : ∀ k', k' ∈ items.map Prod.fst → Fresh s₁ (p ++ [k']) := by
      intro k' hk'
      refine he₁.fresh (hf k' (by simp at hk' ⊢; exact Or.inr hk')) ?_
      intro q hq hq'
      have := hdisj hq hq'
      subst this
      exact hnd.1 hk'
    obtain ⟨s₂, h2, hg₂, he₂, hs₂, hfr₂⟩ := ih s₁ hnd.2 (fun k' c' h => hr k' c' (by simp [h])) hg₁ hf₁
    have hrc := hr k c (by simp)
    refine ⟨s₂, ?_, hg₂, he₁.trans he₂ (fun q hq => ⟨k, hq⟩) (fun q hq => hq) hrc le_rfl, ?_, ?_⟩
    · unfold writeAll
      simp only [h1, h2]
    · intro k' c' h
      rcases List.mem_cons.1 h with h | h
      · cases h
        exact hs₁.mono he₂.file_mono he₂.ser_mono
      · exact hs₂ k' c' h
    · intro k' hk' hfr
      refine hfr₂ k' (fun h => hk' (by simp at h ⊢; exact Or.inr h)) (he₁.fresh hfr ?_)
      intro q hq hq'
      have := hdisj hq hq'
      subst this
      exact hk' (by simp)

/-- The two ways to write a container. -/
theorem write_container {w : Path → ν → WState α → Except PyErr (WState α)} (haddr : Function.Injective addr)
    {x : ν} (hx : ¬ Res x)
    (hw : ∀ p y s, rank y < rank x → Good addr Res s → Fresh s p → ∃ s', w p y s = .ok s' ∧
      Good addr Res s' ∧ Ext addr heap rank Res (p <+: ·) (rank y + 1) s s' ∧ Slot addr heap Res s' p y)
    (hst : Storable (heap x)) (hrank : ∀ c, c ∈ (heap x).members → rank c < rank x)
    (hns : ¬ (heap x).isScalar) {s : WState α} {p : Path} (hg : Good addr Res s) (hf : Fresh s p)
    (hser : s.ser.lookup (addr x) = none) (first : Bool) :
    ∃ s', (match s.put p (heap x).entry with
        | .error e => Except.error e
        | .ok s =>
          match writeAll w p (heap x).children (if first then s.register (addr x) p else s) with
          | .error e => .error e
          | .ok s => .ok (if first then s else s.register (addr x) p)) = Except.ok s' ∧
      Good addr Res s' ∧ Ext addr heap rank Res (p <+: ·) (rank x + 1) s s' ∧ Slot addr heap Res s' p x := by
  rw [put_ok hf]
  simp only
  set s₁ : WState α := { s with file := (p, (heap x).entry) :: s.file } with hs₁
  have hg₁ : Good addr Res s₁ := put_good hg _
  have he₁ : Ext addr heap rank Res (p <+: ·) (rank x + 1) s s₁ := put_ext hf _ _
  have hnone : ∀ b, s.ser.lookup b ≠ some p := by
    intro b hb
    exact hg.stored b p hb (hf p (List.prefix_refl p))
  have hp₁ : s₁.file.lookup p = some (heap x).entry := by
    simp only [hs₁, put_lookup, if_true]
  have hfr : ∀ k, k ∈ (heap x).children.map Prod.fst → Fresh s₁ (p ++ [k]) := by
    intro k _ q hq
    simp only [hs₁, put_lookup]
    rw [if_neg]
    · exact hf q ((List.prefix_append p [k]).trans hq)
    · rintro rfl
      have := hq.length_le
      simp at this
      omega
  have hchild : ∀ k c, (k, c) ∈ (heap x).children → rank c < rank x := by
    intro k c h
    refine hrank c ?_
    rw [← children_members]
    exact List.mem_map.2 ⟨_, h, rfl⟩
  have hpre : ∀ q, (∃ k, p ++ [k] <+: q) → p <+: q := by
    rintro q ⟨k, hk⟩
    exact (List.prefix_append p [k]).trans hk
  have hne : ∀ q, (∃ k, p ++ [k] <+: q) → q ≠ p := by
    rintro q ⟨k, hk⟩ rfl
    have := hk.length_le
    simp at this
    omega
  cases first with
  | true =>
    simp only [if_true]
    have hg₁' : Good addr Res (s₁.register (addr x) p) :=
      register_good hg₁ (by rw [hp₁]; simp) hnone
    obtain ⟨s₂, h2, hg₂, he₂, hs₂, -⟩ := writeAll_spec hw p (heap x).children (s₁.register (addr x) p)
      (children_nodup hst) hchild hg₁' hfr
    rw [h2]
    have hlook : s₂.ser.lookup (addr x) = some p := he₂.ser_mono _ _ (by rw [register_lookup, if_pos rfl])
    have hhere : Here addr heap s₂ p x := ⟨he₂.file_mono _ _ hp₁, fun _ => hlook⟩
    refine ⟨s₂, rfl, hg₂, ?_, Or.inr ⟨hx, hhere⟩⟩
    refine ⟨fun q e h => he₂.file_mono q e (he₁.file_mono q e h), ?_, ?_, ?_⟩
    · intro q e h
      rcases he₂.file_new q e h with h1 | h1
      · exact he₁.file_new q e h1
      · exact Or.inr (hpre q h1)
    · intro a q h
      refine he₂.ser_mono a q ?_
      rw [register_lookup, if_neg]
      · exact h
      · rintro rfl
        rw [hser] at h
        cases h
    · intro a q h
      rcases he₂.ser_new a q h with h1 | ⟨h1, y, hy, hr, hm, hc⟩
      · rw [register_lookup] at h1
        split at h1
        · rename_i ha
          cases h1
          exact Or.inr ⟨List.prefix_refl p, x, ha.symm, hx, by omega, hhere, hs₂⟩
        · exact Or.inl h1
      · exact Or.inr ⟨hpre q h1, y, hy, hr, by omega, hc⟩
  | false =>
    simp only [Bool.false_eq_true, if_false]
    obtain ⟨s₂, h2, hg₂, he₂, hs₂, -⟩ := writeAll_spec hw p (heap x).children s₁
      (children_nodup hst) hchild hg₁ hfr
    rw [h2]
    simp only
    have hp₂ := he₂.file_mono _ _ hp₁
    have hno₂ : ∀ b, s₂.ser.lookup b ≠ some p := by
      intro b hb
      rcases he₂.ser_new b p hb with h1 | ⟨h1, -⟩
      · exact hnone b h1
      · exact hne p h1 rfl
    have hser₂ : s₂.ser.lookup (addr x) = none := by
      cases h : s₂.ser.lookup (addr x) with
      | none => rfl
      | some q =>
        rcases he₂.ser_new _ q h with h1 | ⟨-, y, hy, -, hm, -⟩
        · exact absurd (hser.symm.trans h1) (by simp)
        · rw [haddr hy] at hm
          omega
    have hg₃ : Good addr Res (s₂.register (addr x) p) := register_good hg₂ (by rw [hp₂]; simp) hno₂
    have hmono : ∀ a q, s₂.ser.lookup a = some q → (s₂.register (addr x) p).ser.lookup a = some q := by
      intro a q h
      rw [register_lookup, if_neg]
      · exact h
      · rintro rfl
        rw [hser₂] at h
        cases h
    have hlook : (s₂.register (addr x) p).ser.lookup (addr x) = some p := by
      rw [register_lookup, if_pos rfl]
    have hhere : Here addr heap (s₂.register (addr x) p) p x := ⟨hp₂, fun _ => hlook⟩
    have hfm : ∀ q e, s₂.file.lookup q = some e → (s₂.register (addr x) p).file.lookup q = some e :=
      fun q e h => h
    refine ⟨_, rfl, hg₃, ?_, Or.inr ⟨hx, hhere⟩⟩
    refine ⟨fun q e h => he₂.file_mono q e (he₁.file_mono q e h), ?_,
      fun a q h => hmono a q (he₂.ser_mono a q h), ?_⟩
    · intro q e h
      rcases he₂.file_new q e h with h1 | h1
      · exact he₁.file_new q e h1
      · exact Or.inr (hpre q h1)
    · intro a q h
      rw [register_lookup] at h
      split at h
      · rename_i ha
        cases h
        exact Or.inr ⟨List.prefix_refl p, x, ha.symm, hx, by omega, hhere,
          fun k c hc => (hs₂ k c hc).mono hfm hmono⟩
      · rcases he₂.ser_new a q h with h1 | ⟨h1, y, hy, hr, hm, hc⟩
        · exact Or.inl h1
        · exact Or.inr ⟨hpre q h1, y, hy, hr, by omega, hc.mono hfm hmono⟩

theorem writeAll_nil (w : Path → ν → WState α → Except PyErr (WState α)) (p : Path) (s : WState α) :
    writeAll w p [] s = .ok s := rfl

/-- Writing an object succeeds and stores it with everything below it. -/
theorem write_spec (haddr : Function.Injective addr)
    (hst : ∀ x, ¬ Res x → Storable (heap x) ∧ ∀ c, c ∈ (heap x).members → rank c < rank x) (n : Nat) :
    ∀ p x s, rank x < n → Good addr Res s → Fresh s p → ∃ s', write addr heap n p x s = .ok s' ∧
      Good addr Res s' ∧ Ext addr heap rank Res (p <+: ·) (rank x + 1) s s' ∧ Slot addr heap Res s' p x := by
  induction n with
  | zero => intro p x s h; omega
  | succ n ih =>
    intro p x s hr hg hf
    cases hser : s.ser.lookup (addr x) with
    | some q =>
      refine ⟨{ s with file := (p, .ref q) :: s.file }, ?_, put_good hg _, put_ext hf _ _, Or.inl ⟨q, ?_, hser⟩⟩
      · unfold write
        simp only [hser]
        exact put_ok hf _
      · simp only [put_lookup, if_true]
    | none =>
      have hx : ¬ Res x := fun h => hg.res x h hser
      obtain ⟨hsx, hrx⟩ := hst x hx
      have hw : ∀ p y s, rank y < rank x → Good addr Res s → Fresh s p → ∃ s',
          write addr heap n p y s = .ok s' ∧ Good addr Res s' ∧
          Ext addr heap rank Res (p <+: ·) (rank y + 1) s s' ∧ Slot addr heap Res s' p y :=
        fun p y s h => ih p y s (by omega)
      have hc := fun first hns => write_container haddr hx hw hsx hrx hns hg hf hser first
      have hunf : ∀ r : Except PyErr (WState α), (match heap x with
          | .scalar a => s.put p (.scalar a)
          | .other => .error (.runtimeError "")
          | .inst _ _ => (match s.put p (heap x).entry with
              | .error e => .error e
              | .ok s =>
                match writeAll (write addr heap n) p (heap x).children (s.register (addr x) p) with
                | .error e => .error e
                | .ok s => .ok s)
          | _ => (match s.put p (heap x).entry with
              | .error e => .error e
              | .ok s =>
                match writeAll (write addr heap n) p (heap x).children s with
                | .error e => .error e
                | .ok s => .ok (s.register (addr x) p))) = r → write addr heap (n + 1) p x s = r := by
        rintro r rfl
        rw [write]
        simp only [hser]
        cases heap x with
        | inst cls kw =>
          simp only [Obj.entry, Obj.children]
          cases s.put p (.group (.inst cls) (kw.map Prod.fst)) with
          | error e => rfl
          | ok s' =>
            simp only
            cases writeAll (write addr heap n) p kw (s'.register (addr x) p) <;> rfl
        | _ => rfl
      cases ho : heap x with
      | scalar a =>
        refine ⟨{ s with file := (p, .scalar a) :: s.file }, hunf _ ?_, put_good hg _, put_ext hf _ _,
          Or.inr ⟨hx, ?_, ?_⟩⟩
        · rw [ho]; exact put_ok hf _
        · rw [ho]; simp only [put_lookup, if_true]; rfl
        · rw [ho]; exact fun h => absurd trivial h
      | other => rw [ho] at hsx; exact absurd hsx id
      | inst cls kw =>
        obtain ⟨s', h, h'⟩ := hc true (by rw [ho]; exact id)
        refine ⟨s', hunf _ ?_, h'⟩
        simp only [ho]
        simpa only [ho, if_true] using h
      | dict items =>
        obtain ⟨s', h, h'⟩ := hc false (by rw [ho]; exact id)
        refine ⟨s', hunf _ ?_, h'⟩
        simp only [ho]
        simpa only [ho, Bool.false_eq_true, if_false] using h
      | list items =>
        obtain ⟨s', h, h'⟩ := hc false (by rw [ho]; exact id)
        refine ⟨s', hunf _ ?_, h'⟩
        simp only [ho]
        simpa only [ho, Bool.false_eq_true, if_false] using h
      | tuple items =>
        obtain ⟨s', h, h'⟩ := hc false (by rw [ho]; exact id)
        refine ⟨s', hunf _ ?_, h'⟩
        simp only [ho]
        simpa only [ho, Bool.false_eq_true, if_false] using h
      | array a =>
        obtain ⟨s', h, h'⟩ := hc false (by rw [ho]; exact id)
        refine ⟨s', hunf _ ?_, h'⟩
        simp only [ho]
        simpa only [ho, Bool.false_eq_true, if_false] using h
      | labelled a =>
        obtain ⟨s', h, h'⟩ := hc false (by rw [ho]; exact id)
        refine ⟨s', hunf _ ?_, h'⟩
        simp only [ho]
        simpa only [ho, Bool.false_eq_true, if_false] using h
      | none =>
        obtain ⟨s', h, h'⟩ := hc false (by rw [ho]; exact id)
        refine ⟨s', hunf _ ?_, h'⟩
        simp only [ho]
        simpa only [ho, Bool.false_eq_true, if_false] using h

end

end Qtune.Storage
