import Verif.Storage.WriteLemmas

/-! # What is loaded from a file -/

namespace Qtune.Storage

variable {ν α : Type}

theorem perm_map_exists {β γ : Type} (f : β → γ) {l' m : List γ} (h : l'.Perm m) :
    ∀ l : List β, l.map f = m → ∃ l₂ : List β, l₂.Perm l ∧ l₂.map f = l' := by
  induction h with
  | nil => intro l hl; exact ⟨l, List.Perm.refl _, hl⟩
  | cons x h ih =>
    intro l hl
    cases l with
    | nil => simp at hl
    | cons a l =>
      simp only [List.map_cons, List.cons.injEq] at hl
      obtain ⟨l₂, h1, h2⟩ := ih l hl.2
      exact ⟨a :: l₂, h1.cons a, by rw [List.map_cons, h2, hl.1]⟩
  | swap x y l =>
    intro l' hl
    match l', hl with
    | a :: b :: l', hl =>
      simp only [List.map_cons, List.cons.injEq] at hl
      exact ⟨b :: a :: l', List.Perm.swap _ _ _, by simp [hl.1, hl.2.1, hl.2.2]⟩
  | trans h₁ h₂ ih₁ ih₂ =>
    intro l hl
    obtain ⟨l₂, h1, h2⟩ := ih₂ l hl
    obtain ⟨l₃, h3, h4⟩ := ih₁ l₂ h2
    exact ⟨l₃, h3.trans h1, h4⟩

theorem Same.mono {R R' : ν → Nat → Prop} (h : ∀ x r, R x r → R' x r) {o : Obj ν α} {o' : Obj Nat α}
    (hs : Same R o o') : Same R' o o' := by
  have hi : ∀ {items items'}, SameItems R items items' → SameItems R' items items' := by
    intro items items' hi
    refine ⟨hi.keys, fun k c hc => ?_⟩
    obtain ⟨r, h1, h2⟩ := hi.values k c hc
    exact ⟨r, h1, h c r h2⟩
  cases hs with
  | array a => exact .array a
  | labelled a => exact .labelled a
  | scalar a => exact .scalar a
  | none => exact .none
  | dict h' => exact .dict (hi h')
  | list h' => exact .list (h'.imp h)
  | tuple h' => exact .tuple (h'.imp h)
  | inst h' => exact .inst (hi h')

section

variable (addr : ν → Nat) (heap : ν → Obj ν α) (rank : ν → Nat) (Res : ν → Prop)
  (W : WState α) (base : Nat) (given : ν → Nat → Prop) (D : Path → Nat → Prop)

/-- The file is complete: every registered object is reserved or stored with its members. -/
structure Whole : Prop where
  good : Good addr Res W
  whole : ∀ a q, W.ser.lookup a = some q →
    (∃ x, addr x = a ∧ Res x ∧ W.file.lookup q = some .reserved) ∨
      ∃ y, addr y = a ∧ ¬ Res y ∧ Complete addr heap Res W q y

/-- The relation `R` describes what has been read so far. -/
structure RInv (s : RState α) (R : ν → Nat → Prop) : Prop where
  sound : ∀ q r, s.deser.lookup q = some r → W.file.lookup q = some .reserved ∨
    ∃ x, W.ser.lookup (addr x) = some q ∧ R x r ∧ ¬ Res x ∧ Memo (heap x)
  reserved : ∀ x r, R x r → Res x → given x r
  resread : ∀ x, Res x → ∃ q r, W.ser.lookup (addr x) = some q ∧ s.deser.lookup q = some r ∧ R x r
  memo : ∀ x r q, R x r → ¬ Res x → Memo (heap x) → W.ser.lookup (addr x) = some q →
    s.deser.lookup q = some r
  stored : ∀ x r, R x r → ¬ Res x → Memo (heap x) → ∃ q, W.ser.lookup (addr x) = some q
  range : ∀ x r, R x r → ¬ Res x → base ≤ r ∧ r < s.heap.length
  inj : ∀ x y r, ¬ Res x → ¬ Res y → R x r → R y r → x = y
  base_le : base ≤ s.heap.length
  keep : ∀ q r, D q r → s.deser.lookup q = some r
  all : ∀ y r, given y r → R y r

/-- What reading adds to the relation. -/
structure Reads (M : Nat) (s : RState α) (R : ν → Nat → Prop) (s' : RState α) (R' : ν → Nat → Prop) :
    Prop where
  inv : RInv addr heap Res W base given D s' R'
  mono : ∀ x r, R x r → R' x r
  new : ∀ y t, R' y t → R y t ∨ (¬ Res y ∧ s.heap.length ≤ t ∧ rank y < M ∧
    ∃ o, s'.heap[t]? = some o ∧ Same R' (heap y) o)
  heap_mono : ∀ (t : Nat) o, s.heap[t]? = some o → s'.heap[t]? = some o

variable {addr heap rank Res W base given D}

theorem Reads.refl {M : Nat} {s : RState α} {R : ν → Nat → Prop}
    (h : RInv addr heap Res W base given D s R) : Reads addr heap rank Res W base given D M s R s R :=
  ⟨h, fun _ _ h => h, fun _ _ h => Or.inl h, fun _ _ h => h⟩

theorem length_le_of_mono {s s' : List (Obj Nat α)} (h : ∀ (t : Nat) o, s[t]? = some o → s'[t]? = some o) :
    s.length ≤ s'.length := by
  by_contra hc
  push Not at hc
  have h1 := h s'.length s[s'.length] (List.getElem?_eq_getElem hc)
  simp at h1

theorem Reads.trans {M M' : Nat} {s₁ s₂ s₃ : RState α} {R₁ R₂ R₃ : ν → Nat → Prop}
    (h : Reads addr heap rank Res W base given D M s₁ R₁ s₂ R₂)
    (h' : Reads addr heap rank Res W base given D M' s₂ R₂ s₃ R₃) (hM : M ≤ M') :
    Reads addr heap rank Res W base given D M' s₁ R₁ s₃ R₃ where
  inv := h'.inv
  mono x r hr := h'.mono x r (h.mono x r hr)
  new y t ht := by
    have hl := length_le_of_mono h.heap_mono
    rcases h'.new y t ht with h1 | ⟨h1, h2, h3, h4⟩
    · rcases h.new y t h1 with h2 | ⟨h2, h3, h4, o, h5, h6⟩
      · exact Or.inl h2
      · exact Or.inr ⟨h2, h3, by omega, o, h'.heap_mono t o h5, h6.mono h'.mono⟩
    · exact Or.inr ⟨h1, by omega, h3, h4⟩
  heap_mono t o ho := h'.heap_mono t o (h.heap_mono t o ho)

/-- Reading at `p` gives an object for `x`. -/
def ReadsAt (addr : ν → Nat) (heap : ν → Obj ν α) (rank : ν → Nat) (Res : ν → Prop) (W : WState α)
    (base : Nat) (given : ν → Nat → Prop) (D : Path → Nat → Prop) (M : Nat)
    (rd : Path → RState α → Except PyErr (Nat × RState α)) (p : Path) (x : ν) : Prop :=
  ∀ s R, RInv addr heap Res W base given D s R → ∃ r s' R', rd p s = .ok (r, s') ∧
    Reads addr heap rank Res W base given D M s R s' R' ∧ R' x r

theorem readAll_spec {rd : Path → RState α → Except PyErr (Nat × RState α)} {M : Nat} (p : Path) :
    ∀ cs : List (String × ν),
      (∀ k c, (k, c) ∈ cs → ReadsAt addr heap rank Res W base given D M rd (p ++ [k]) c) →
      ∀ s R, RInv addr heap Res W base given D s R →
      ∃ rs s' R', readAll rd p (cs.map Prod.fst) s = .ok (rs, s') ∧
        Reads addr heap rank Res W base given D M s R s' R' ∧
        List.Forall₂ (fun c r => c.1 = r.1 ∧ R' c.2 r.2) cs rs := by
  intro cs
  induction cs with
  | nil => intro _ s R hi; exact ⟨[], s, R, rfl, Reads.refl hi, .nil⟩
  | cons kc cs ih =>
    intro hc s R hi
    obtain ⟨k, c⟩ := kc
    obtain ⟨r, s₁, R₁, h1, h2, h3⟩ := hc k c (by simp) s R hi
    obtain ⟨rs, s₂, R₂, h4, h5, h6⟩ := ih (fun k' c' h => hc k' c' (by simp [h])) s₁ R₁ h2.inv
    refine ⟨(k, r) :: rs, s₂, R₂, ?_, h2.trans h5 le_rfl, .cons ⟨rfl, h5.mono _ _ h3⟩ h6⟩
    simp only [List.map_cons, readAll, h1, h4]

theorem deser_lookup (s : RState α) (p : Path) (r : Nat) (q : Path) :
    (s.register p r).deser.lookup q = if q = p then some r else s.deser.lookup q := by
  unfold RState.register
  simp only [List.lookup_cons]
  by_cases h : q = p
  · subst h; simp
  · simp [h, beq_eq_false_iff_ne.2 h]

/-- The relation with one more pair. -/
def addPair (R : ν → Nat → Prop) (x : ν) (r : Nat) : ν → Nat → Prop :=
  fun y t => R y t ∨ (y = x ∧ t = r)

/-- A new object is registered for `x`. -/
theorem RInv.alloc_register {s : RState α} {R : ν → Nat → Prop} (haddr : Function.Injective addr)
    (hW : Whole addr heap Res W) (hi : RInv addr heap Res W base given D s R)
    {x : ν} {p : Path} (hx : ¬ Res x) (hm : Memo (heap x)) (hser : W.ser.lookup (addr x) = some p)
    (hnew : s.deser.lookup p = none) (o : Obj Nat α) :
    RInv addr heap Res W base given D ((s.alloc o).register p s.heap.length)
      (addPair R x s.heap.length) where
  sound q r h := by
    rw [deser_lookup] at h
    split at h
    · rename_i hq
      cases h
      subst hq
      exact Or.inr ⟨x, hser, Or.inr ⟨rfl, rfl⟩, hx, hm⟩
    · rcases hi.sound q r h with h1 | ⟨y, h1, h2, h3, h4⟩
      · exact Or.inl h1
      · exact Or.inr ⟨y, h1, Or.inl h2, h3, h4⟩
  reserved y r h hy := by
    rcases h with h | ⟨rfl, -⟩
    · exact hi.reserved y r h hy
    · exact absurd hy hx
  resread y hy := by
    obtain ⟨q, r, h1, h2, h3⟩ := hi.resread y hy
    refine ⟨q, r, h1, ?_, Or.inl h3⟩
    rw [deser_lookup, if_neg]
    · exact h2
    · rintro rfl
      rw [hnew] at h2
      cases h2
  memo y r q h hy hmy hq := by
    rw [deser_lookup]
    rcases h with h | ⟨rfl, rfl⟩
    · have h1 := hi.memo y r q h hy hmy hq
      rw [if_neg]
      · exact h1
      · rintro rfl
        rw [hnew] at h1
        cases h1
    · rw [hser] at hq
      cases hq
      rw [if_pos rfl]
  stored y r h hy hmy := by
    rcases h with h | ⟨rfl, rfl⟩
    · exact hi.stored y r h hy hmy
    · exact ⟨p, hser⟩
  range y r h hy := by
    have hl : ((s.alloc o).register p s.heap.length).heap.length = s.heap.length + 1 := by
      simp [RState.alloc, RState.register]
    rw [hl]
    rcases h with h | ⟨rfl, rfl⟩
    · have := hi.range y r h hy
      omega
    · have := hi.base_le
      omega
  inj y z r hy hz h h' := by
    rcases h with h | ⟨rfl, rfl⟩ <;> rcases h' with h' | ⟨rfl, h2⟩
    · exact hi.inj y z r hy hz h h'
    · have := (hi.range y r h hy).2
      omega
    · have := (hi.range z _ h' hz).2
      omega
    · rfl
  base_le := by
    have := hi.base_le
    simp [RState.alloc, RState.register]
    omega
  keep q r h := by
    have h1 := hi.keep q r h
    rw [deser_lookup, if_neg]
    · exact h1
    · rintro rfl
      rw [hnew] at h1
      cases h1
  all y r h := Or.inl (hi.all y r h)

/-- A new object is made for `x` that is not registered. -/
theorem RInv.alloc {s : RState α} {R : ν → Nat → Prop}
    (hi : RInv addr heap Res W base given D s R) {x : ν} (hx : ¬ Res x) (hm : ¬ Memo (heap x))
    (o : Obj Nat α) : RInv addr heap Res W base given D (s.alloc o) (addPair R x s.heap.length) where
  sound q r h := by
    rcases hi.sound q r h with h1 | ⟨y, h1, h2, h3, h4⟩
    · exact Or.inl h1
    · exact Or.inr ⟨y, h1, Or.inl h2, h3, h4⟩
  reserved y r h hy := by
    rcases h with h | ⟨rfl, -⟩
    · exact hi.reserved y r h hy
    · exact absurd hy hx
  resread y hy := by
    obtain ⟨q, r, h1, h2, h3⟩ := hi.resread y hy
    exact ⟨q, r, h1, h2, Or.inl h3⟩
  memo y r q h hy hmy hq := by
    rcases h with h | ⟨rfl, rfl⟩
    · exact hi.memo y r q h hy hmy hq
    · exact absurd hmy hm
  stored y r h hy hmy := by
    rcases h with h | ⟨rfl, rfl⟩
    · exact hi.stored y r h hy hmy
    · exact absurd hmy hm
  range y r h hy := by
    have hl : (s.alloc o).heap.length = s.heap.length + 1 := by
      simp [RState.alloc]
    rw [hl]
    rcases h with h | ⟨rfl, rfl⟩
    · have := hi.range y r h hy
      omega
    · have := hi.base_le
      omega
  inj y z r hy hz h h' := by
    rcases h with h | ⟨rfl, rfl⟩ <;> rcases h' with h' | ⟨rfl, h2⟩
    · exact hi.inj y z r hy hz h h'
    · have := (hi.range y r h hy).2
      omega
    · have := (hi.range z _ h' hz).2
      omega
    · rfl
  base_le := by
    have := hi.base_le
    simp [RState.alloc]
    omega
  keep := hi.keep
  all y r h := Or.inl (hi.all y r h)

theorem alloc_get_old {s : List (Obj Nat α)} {o : Obj Nat α} {t : Nat} {u : Obj Nat α}
    (h : s[t]? = some u) : (s ++ [o])[t]? = some u := by
  have ht : t < s.length := by
    by_contra hc
    rw [List.getElem?_eq_none (by omega)] at h
    cases h
  rw [List.getElem?_append_left ht, h]

theorem alloc_get_new (s : List (Obj Nat α)) (o : Obj Nat α) : (s ++ [o])[s.length]? = some o := by
  simp

/-- Making one new object adds one pair. -/
theorem reads_add {s s' : RState α} {R : ν → Nat → Prop} {x : ν} {o : Obj Nat α} {M : Nat}
    (hs' : s'.heap = s.heap ++ [o]) (hx : ¬ Res x) (hM : rank x < M)
    (hinv : RInv addr heap Res W base given D s' (addPair R x s.heap.length))
    (hsame : Same (addPair R x s.heap.length) (heap x) o) :
    Reads addr heap rank Res W base given D M s R s' (addPair R x s.heap.length) where
  inv := hinv
  mono _ _ h := Or.inl h
  new y t h := by
    rcases h with h | ⟨rfl, rfl⟩
    · exact Or.inl h
    · exact Or.inr ⟨hx, le_rfl, hM, o, by rw [hs']; exact alloc_get_new _ _, hsame⟩
  heap_mono t u h := by rw [hs']; exact alloc_get_old h

theorem sameItems_of_forall₂ {R : ν → Nat → Prop} {items cs : List (String × ν)} {rs : List (String × Nat)}
    (hp : cs.Perm items) (h : List.Forall₂ (fun c r => c.1 = r.1 ∧ R c.2 r.2) cs rs) :
    SameItems R items rs := by
  constructor
  · have h1 : rs.map Prod.fst = cs.map Prod.fst := by
      clear hp
      induction h with
      | nil => rfl
      | cons h _ ih => simp [h.1, ih]
    rw [h1]
    exact hp.map _
  · intro k c hc
    have hc' := hp.mem_iff.2 hc
    clear hp hc
    induction h with
    | nil => simp at hc'
    | @cons a b l l' h _ ih =>
      rcases List.mem_cons.1 hc' with rfl | h1
      · have hk : k = b.1 := h.1
        exact ⟨b.2, by rw [hk]; simp, h.2⟩
      · obtain ⟨r, h2, h3⟩ := ih h1
        exact ⟨r, by simp [h2], h3⟩

theorem forall₂_snd {R : ν → Nat → Prop} {cs : List (String × ν)} {rs : List (String × Nat)}
    (h : List.Forall₂ (fun c r => c.1 = r.1 ∧ R c.2 r.2) cs rs) :
    List.Forall₂ R (cs.map Prod.snd) (rs.map Prod.snd) := by
  induction h with
  | nil => exact .nil
  | cons h _ ih => exact .cons h.2 ih

theorem fill_reads {s : RState α} {R : ν → Nat → Prop} {x : ν} {p : Path} {M : Nat}
    {o : Obj Nat α} {s₂ : RState α} {R₂ : ν → Nat → Prop} {u : Obj Nat α}
    (hx : ¬ Res x) (hM : rank x < M)
    (h : Reads addr heap rank Res W base given D (rank x) ((s.alloc o).register p s.heap.length)
      (addPair R x s.heap.length) s₂ R₂) (hsame : Same R₂ (heap x) u) :
    Reads addr heap rank Res W base given D M s R (s₂.fill s.heap.length u) R₂ := by
  have hlen : (s₂.fill s.heap.length u).heap.length = s₂.heap.length := by
    simp [RState.fill]
  have hl : ((s.alloc o).register p s.heap.length).heap.length = s.heap.length + 1 := by
    simp [RState.alloc, RState.register]
  have hle := length_le_of_mono h.heap_mono
  rw [hl] at hle
  have hget : ∀ t : Nat, t ≠ s.heap.length → (s₂.fill s.heap.length u).heap[t]? = s₂.heap[t]? := by
    intro t ht
    simp only [RState.fill]
    rw [List.getElem?_set_ne (Ne.symm ht)]
  constructor
  · have hv := h.inv
    exact ⟨hv.sound, hv.reserved, hv.resread, hv.memo, hv.stored, fun y r hr hy => by rw [hlen]; exact hv.range y r hr hy,
      hv.inj, by rw [hlen]; exact hv.base_le, hv.keep, hv.all⟩
  · exact fun y r hr => h.mono y r (Or.inl hr)
  · intro y t ht
    rcases h.new y t ht with (h1 | ⟨rfl, rfl⟩) | ⟨h1, h2, h3, v, h4, h5⟩
    · exact Or.inl h1
    · refine Or.inr ⟨hx, le_rfl, hM, u, ?_, hsame⟩
      simp only [RState.fill]
      rw [List.getElem?_set_self (by omega)]
    · rw [hl] at h2
      exact Or.inr ⟨h1, by omega, by omega, v, by rw [hget t (by omega)]; exact h4, h5⟩
  · intro t v hv
    have ht : t < s.heap.length := by
      by_contra hc
      rw [List.getElem?_eq_none (by omega)] at hv
      cases hv
    rw [hget t (by omega)]
    refine h.heap_mono t v ?_
    simp only [RState.register, RState.alloc]
    exact alloc_get_old hv

/-- Reading works for everything in a whole file. -/
theorem read_spec (haddr : Function.Injective addr) (hW : Whole addr heap Res W)
    (hst : ∀ x, ¬ Res x → Storable (heap x) ∧ ∀ c, c ∈ (heap x).members → rank c < rank x)
    {order : List String → List String} (horder : ∀ l, (order l).Perm l) (n : Nat) :
    (∀ p x, Complete addr heap Res W p x → ¬ Res x → 2 * rank x + 1 ≤ n →
      ReadsAt addr heap rank Res W base given D (rank x + 1) (read order W.file n) p x) ∧
    (∀ p x, Slot addr heap Res W p x → 2 * rank x + 2 ≤ n →
      ReadsAt addr heap rank Res W base given D (rank x + 1) (read order W.file n) p x) := by
  induction n with
  | zero => exact ⟨fun _ _ _ _ h => by omega, fun _ _ _ h => by omega⟩
  | succ n ih =>
    have hdirect : ∀ p x, Complete addr heap Res W p x → ¬ Res x → 2 * rank x + 1 ≤ n + 1 →
        ReadsAt addr heap rank Res W base given D (rank x + 1) (read order W.file (n + 1)) p x := by
      intro p x hc hx hn s R hi
      obtain ⟨hsx, hrx⟩ := hst x hx
      have hentry := hc.here.entry
      cases hd : s.deser.lookup p with
      | some r =>
        refine ⟨r, s, R, by simp only [read, hd], Reads.refl hi, ?_⟩
        rcases hi.sound p r hd with h1 | ⟨y, h1, h2, h3, h4⟩
        · rw [hentry] at h1
          cases ho : heap x <;> rw [ho] at h1 <;> simp [Obj.entry] at h1
        · -- the object at `p` is `y`
          rcases hW.whole _ _ h1 with ⟨z, hz, hrz, -⟩ | ⟨z, hz, -, hcz⟩
          · rw [haddr hz] at hrz
            exact absurd hrz h3
          · have hzy := haddr hz
            subst hzy
            have hent := hcz.here.entry
            rw [hentry] at hent
            have hns : ¬ (heap x).isScalar := by
              intro hs
              cases ho : heap x with
              | scalar a =>
                rw [ho] at hent
                cases ho' : heap z <;> rw [ho'] at hent h4 <;> simp [Obj.entry] at hent <;> exact h4
              | _ => rw [ho] at hs; exact hs
            have hs1 := hc.here.ser hns
            have := haddr (hW.good.inj _ _ _ hs1 h1)
            rw [this]
            exact h2
      | none =>
        have hch : ∀ k c, (k, c) ∈ (heap x).children →
            ReadsAt addr heap rank Res W base given D (rank x) (read order W.file n) (p ++ [k]) c := by
          intro k c hkc s R hi
          have hrc : rank c < rank x := by
            refine hrx c ?_
            rw [← children_members]
            exact List.mem_map.2 ⟨_, hkc, rfl⟩
          obtain ⟨r, s', R', h1, h2, h3⟩ := ih.2 (p ++ [k]) c (hc.members k c hkc) (by omega) s R hi
          exact ⟨r, s', R', h1, (Reads.refl hi).trans h2 (Nat.zero_le _) |>.trans (Reads.refl h2.inv) hrc, h3⟩
        -- registered after the members were read
        have hlate : Memo (heap x) → ∀ {s' R'}, Reads addr heap rank Res W base given D (rank x) s R s' R' →
            s'.deser.lookup p = none := by
          intro hm s' R' h
          cases hd' : s'.deser.lookup p with
          | none => rfl
          | some r =>
            have hns : ¬ (heap x).isScalar := by
              cases ho : heap x <;> rw [ho] at hm <;> first | exact absurd hm id | exact id
            have hser := hc.here.ser hns
            rcases h.inv.sound p r hd' with h1 | ⟨y, h1, h2, h3, h4⟩
            · rw [hentry] at h1
              cases ho : heap x <;> rw [ho] at h1 <;> simp [Obj.entry] at h1
            · have hyx := haddr (hW.good.inj _ _ _ h1 hser)
              subst hyx
              rcases h.new y r h2 with h5 | ⟨-, -, h5, -⟩
              · have := hi.memo y r p h5 h3 h4 h1
                rw [hd] at this
                cases this
              · omega
        cases ho : heap x with
        | other => rw [ho] at hsx; exact absurd hsx id
        | scalar a =>
          rw [ho] at hentry
          refine ⟨s.heap.length, s.alloc (.scalar a), addPair R x s.heap.length, ?_,
            reads_add rfl hx (by omega) (hi.alloc hx (by rw [ho]; exact id) _) (by rw [ho]; exact .scalar a),
            Or.inr ⟨rfl, rfl⟩⟩
          simp only [read, hd, hentry, Obj.entry]
        | array a =>
          rw [ho] at hentry
          refine ⟨s.heap.length, s.alloc (.array a), addPair R x s.heap.length, ?_,
            reads_add rfl hx (by omega) (hi.alloc hx (by rw [ho]; exact id) _) (by rw [ho]; exact .array a),
            Or.inr ⟨rfl, rfl⟩⟩
          simp only [read, hd, hentry, Obj.entry]
        | none =>
          rw [ho] at hentry
          refine ⟨s.heap.length, s.alloc .none, addPair R x s.heap.length, ?_,
            reads_add rfl hx (by omega) (hi.alloc hx (by rw [ho]; exact id) _) (by rw [ho]; exact .none),
            Or.inr ⟨rfl, rfl⟩⟩
          simp only [read, hd, hentry, Obj.entry]
        | labelled a =>
          have hser := hc.here.ser (by rw [ho]; exact id)
          rw [ho] at hentry
          refine ⟨s.heap.length, (s.alloc (.labelled a)).register p s.heap.length,
            addPair R x s.heap.length, ?_,
            reads_add rfl hx (by omega)
              (hi.alloc_register haddr hW hx (by rw [ho]; trivial) hser hd _) (by rw [ho]; exact .labelled a),
            Or.inr ⟨rfl, rfl⟩⟩
          simp only [read, hd, hentry, Obj.entry]
        | dict items =>
          have hser := hc.here.ser (by rw [ho]; exact id)
          rw [ho] at hentry hch
          obtain ⟨cs, hcs, hkeys⟩ := perm_map_exists Prod.fst (horder (items.map Prod.fst)) items rfl
          obtain ⟨rs, s₂, R₂, h1, h2, h3⟩ := readAll_spec p cs
            (fun k c h => hch k c (hcs.mem_iff.1 h)) _ _
            (hi.alloc_register haddr hW hx (by rw [ho]; trivial) hser hd (.dict []))
          refine ⟨s.heap.length, s₂.fill s.heap.length (.dict rs), R₂, ?_,
            fill_reads hx (by omega) h2 (by rw [ho]; exact .dict (sameItems_of_forall₂ hcs h3)),
            h2.mono _ _ (Or.inr ⟨rfl, rfl⟩)⟩
          rw [hkeys] at h1
          simp only [read, hd, hentry, Obj.entry, h1]
        | list items =>
          have hser := hc.here.ser (by rw [ho]; exact id)
          rw [ho] at hentry hch
          obtain ⟨rs, s₂, R₂, h1, h2, h3⟩ := readAll_spec p (enumerate items) hch _ _
            (hi.alloc_register haddr hW hx (by rw [ho]; trivial) hser hd (.list []))
          have h4 := forall₂_snd h3
          rw [enumerate_snd] at h4
          refine ⟨s.heap.length, s₂.fill s.heap.length (.list (rs.map Prod.snd)), R₂, ?_,
            fill_reads hx (by omega) h2 (by rw [ho]; exact .list h4), h2.mono _ _ (Or.inr ⟨rfl, rfl⟩)⟩
          rw [enumerate_keys] at h1
          have hlen : (indices items.length).length = items.length := by simp [indices]
          simp only [read, hd, hentry, Obj.entry, enumerate_keys, hlen, h1]
        | tuple items =>
          have hser := hc.here.ser (by rw [ho]; exact id)
          rw [ho] at hentry hch
          obtain ⟨rs, s₂, R₂, h1, h2, h3⟩ := readAll_spec p (enumerate items) hch s R hi
          have h4 := forall₂_snd h3
          rw [enumerate_snd] at h4
          have hnone := hlate (by rw [ho]; trivial) h2
          refine ⟨s₂.heap.length, (s₂.alloc (.tuple (rs.map Prod.snd))).register p s₂.heap.length,
            addPair R₂ x s₂.heap.length, ?_, h2.trans (reads_add rfl hx (by omega)
              (h2.inv.alloc_register haddr hW hx (by rw [ho]; trivial) hser hnone _) ?_) (by omega),
            Or.inr ⟨rfl, rfl⟩⟩
          · rw [enumerate_keys] at h1
            have hlen : (indices items.length).length = items.length := by simp [indices]
            simp only [read, hd, hentry, Obj.entry, enumerate_keys, hlen, h1]
          · rw [ho]
            exact .tuple (h4.imp fun _ _ h => Or.inl h)
        | inst cls items =>
          have hser := hc.here.ser (by rw [ho]; exact id)
          rw [ho] at hentry hch
          obtain ⟨cs, hcs, hkeys⟩ := perm_map_exists Prod.fst (horder (items.map Prod.fst)) items rfl
          obtain ⟨rs, s₂, R₂, h1, h2, h3⟩ := readAll_spec p cs
            (fun k c h => hch k c (hcs.mem_iff.1 h)) s R hi
          have hnone := hlate (by rw [ho]; trivial) h2
          refine ⟨s₂.heap.length, (s₂.alloc (.inst cls rs)).register p s₂.heap.length,
            addPair R₂ x s₂.heap.length, ?_, h2.trans (reads_add rfl hx (by omega)
              (h2.inv.alloc_register haddr hW hx (by rw [ho]; trivial) hser hnone _) ?_) (by omega),
            Or.inr ⟨rfl, rfl⟩⟩
          · rw [hkeys] at h1
            simp only [read, hd, hentry, Obj.entry, h1]
          · rw [ho]
            exact (Same.inst (sameItems_of_forall₂ hcs h3)).mono fun _ _ h => Or.inl h
    refine ⟨hdirect, ?_⟩
    intro p x hslot hn
    rcases hslot with ⟨q, h1, h2⟩ | ⟨hx, hhere⟩
    · intro s R hi
      have hnone : s.deser.lookup p = none := by
        cases hd : s.deser.lookup p with
        | none => rfl
        | some r =>
          rcases hi.sound p r hd with h3 | ⟨y, h3, -, h4, h5⟩
          · rw [h1] at h3; cases h3
          · rcases hW.whole _ _ h3 with ⟨z, hz, hrz, -⟩ | ⟨z, hz, -, hcz⟩
            · rw [haddr hz] at hrz
              exact absurd hrz h4
            · have hent := hcz.here.entry
              rw [h1] at hent
              cases ho : heap z <;> rw [ho] at hent <;> simp [Obj.entry] at hent
      have hunf : read order W.file (n + 1) p s = read order W.file n q s := by
        simp only [read, hnone, h1]
      by_cases hx : Res x
      · obtain ⟨q', r, h3, h4, h5⟩ := hi.resread x hx
        rw [h2] at h3
        cases h3
        obtain ⟨m, rfl⟩ : ∃ m, n = m + 1 := ⟨n - 1, by omega⟩
        exact ⟨r, s, R, by rw [hunf]; simp only [read, h4], Reads.refl hi, h5⟩
      · rcases hW.whole _ _ h2 with ⟨z, hz, hrz, -⟩ | ⟨z, hz, -, hcz⟩
        · rw [haddr hz] at hrz
          exact absurd hrz hx
        · have hzx := haddr hz
          subst hzx
          rw [hunf]
          exact ih.1 q z hcz hx (by omega) s R hi
    · refine hdirect p x ?_ hx (by omega)
      by_cases hs : (heap x).isScalar
      · refine ⟨hhere, fun k c hkc => ?_⟩
        cases ho : heap x with
        | scalar a => rw [ho] at hkc; simp [Obj.children] at hkc
        | _ => rw [ho] at hs; exact absurd hs id
      · rcases hW.whole _ _ (hhere.ser hs) with ⟨z, hz, hrz, -⟩ | ⟨z, hz, -, hcz⟩
        · rw [haddr hz] at hrz
          exact absurd hrz hx
        · rw [haddr hz] at hcz
          exact hcz

end

end Qtune.Storage
