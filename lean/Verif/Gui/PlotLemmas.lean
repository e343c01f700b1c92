import Verif.Gui.PlotSpec

/-! # Lemmas about the plots of the gui -/

namespace Qtune.Gui.Plot

variable {T : Type}

theorem split_hash : ∀ {a b x y : List Char}, '#' ∉ a → '#' ∉ b → a ++ '#' :: x = b ++ '#' :: y → a = b ∧ x = y
  | [], [], _, _, _, _, h => by simpa using h
  | [], c :: b, _, _, _, hb, h => by
    simp only [List.nil_append, List.cons_append, List.cons.injEq] at h
    exact absurd (h.1 ▸ List.mem_cons_self) hb
  | c :: a, [], _, _, ha, _, h => by
    simp only [List.nil_append, List.cons_append, List.cons.injEq] at h
    exact absurd (h.1 ▸ List.mem_cons_self) ha
  | c :: a, d :: b, x, y, ha, hb, h => by
    simp only [List.cons_append, List.cons.injEq] at h
    obtain ⟨h1, h2⟩ := split_hash (fun h' => ha (List.mem_cons_of_mem _ h')) (fun h' => hb (List.mem_cons_of_mem _ h')) h.2
    exact ⟨by rw [h.1, h1], h2⟩

theorem no_hash {a x : List Char} (h : '#' ∉ a ++ '#' :: x) : False := h (by simp)

/-- The characters of the keys. -/
theorem key_chars (i : Item) : i.key.toList = match i with
    | .gate g => g.toList
    | .param p => p.toList
    | .paramBars p => p.toList ++ '#' :: "err_bar".toList
    | .grad p g => p.toList ++ '#' :: g.toList
    | .gradBars p g => p.toList ++ '#' :: (g.toList ++ '#' :: "err_bar".toList) := by
  cases i <;> simp [Item.key]

theorem Selection.Named.gradient' {sel : Selection} (h : sel.Named) {p g : String}
    (hi : ∃ l c, (p, l) ∈ sel.grads ∧ (g, c) ∈ l) : '#' ∉ p.toList ∧ '#' ∉ g.toList ∧ g ≠ "err_bar" := by
  obtain ⟨l, c, h1, h2⟩ := hi
  exact ⟨(h.gradient p l h1).1, (h.gradient p l h1).2 g c h2⟩

/-- Different items have different keys. -/
theorem key_injective {sel : Selection} (h : sel.Named) {i j : Item} (hi : sel.Offers i) (hj : sel.Offers j)
    (hk : i.key = j.key) : i = j := by
  replace hk := congrArg String.toList hk
  rw [key_chars, key_chars] at hk
  have herr : '#' ∉ "err_bar".toList := by decide
  cases i <;> cases j <;> simp only [Selection.Offers] at hi hj hk
  case gate.gate g g' => rw [String.toList_inj.1 hk]
  case gate.param g p =>
    obtain ⟨b, hb⟩ := hi; obtain ⟨c, hc⟩ := hj
    exact absurd (String.toList_inj.1 hk ▸ hc) (h.different g b c hb)
  case param.gate p g =>
    obtain ⟨b, hb⟩ := hj; obtain ⟨c, hc⟩ := hi
    exact absurd (String.toList_inj.1 hk ▸ hc) (h.different g b c hb)
  case param.param p p' => rw [String.toList_inj.1 hk]
  case gate.paramBars g p => obtain ⟨b, hb⟩ := hi; exact (no_hash (hk ▸ h.gate g b hb)).elim
  case gate.grad g p g' => obtain ⟨b, hb⟩ := hi; exact (no_hash (hk ▸ h.gate g b hb)).elim
  case gate.gradBars g p g' => obtain ⟨b, hb⟩ := hi; exact (no_hash (hk ▸ h.gate g b hb)).elim
  case param.paramBars p p' => obtain ⟨b, hb⟩ := hi; exact (no_hash (hk ▸ h.param p b hb)).elim
  case param.grad p p' g => obtain ⟨b, hb⟩ := hi; exact (no_hash (hk ▸ h.param p b hb)).elim
  case param.gradBars p p' g => obtain ⟨b, hb⟩ := hi; exact (no_hash (hk ▸ h.param p b hb)).elim
  case paramBars.gate p g => obtain ⟨b, hb⟩ := hj; exact (no_hash (hk ▸ h.gate g b hb)).elim
  case grad.gate p g' g => obtain ⟨b, hb⟩ := hj; exact (no_hash (hk ▸ h.gate g b hb)).elim
  case gradBars.gate p g' g => obtain ⟨b, hb⟩ := hj; exact (no_hash (hk ▸ h.gate g b hb)).elim
  case paramBars.param p' p => obtain ⟨b, hb⟩ := hj; exact (no_hash (hk ▸ h.param p b hb)).elim
  case grad.param p' g p => obtain ⟨b, hb⟩ := hj; exact (no_hash (hk ▸ h.param p b hb)).elim
  case gradBars.param p' g p => obtain ⟨b, hb⟩ := hj; exact (no_hash (hk ▸ h.param p b hb)).elim
  case paramBars.paramBars p p' =>
    obtain ⟨b, hb⟩ := hi; obtain ⟨c, hc⟩ := hj
    rw [String.toList_inj.1 (split_hash (h.param p b hb) (h.param p' c hc) hk).1]
  case paramBars.grad p p' g =>
    obtain ⟨b, hb⟩ := hi; obtain ⟨h1, h2, h3⟩ := h.gradient' hj
    exact absurd (String.toList_inj.1 (split_hash (h.param p b hb) h1 hk).2).symm h3
  case grad.paramBars p' g p =>
    obtain ⟨b, hb⟩ := hj; obtain ⟨h1, h2, h3⟩ := h.gradient' hi
    exact absurd (String.toList_inj.1 (split_hash h1 (h.param p b hb) hk).2) h3
  case paramBars.gradBars p p' g =>
    obtain ⟨b, hb⟩ := hi; obtain ⟨h1, h2, h3⟩ := h.gradient' hj
    exact (no_hash ((split_hash (h.param p b hb) h1 hk).2 ▸ herr)).elim
  case gradBars.paramBars p' g p =>
    obtain ⟨b, hb⟩ := hj; obtain ⟨h1, h2, h3⟩ := h.gradient' hi
    exact (no_hash ((split_hash h1 (h.param p b hb) hk).2 ▸ herr)).elim
  case grad.grad p g p' g' =>
    obtain ⟨h1, h2, h3⟩ := h.gradient' hi; obtain ⟨h1', h2', h3'⟩ := h.gradient' hj
    obtain ⟨e1, e2⟩ := split_hash h1 h1' hk
    rw [String.toList_inj.1 e1, String.toList_inj.1 e2]
  case grad.gradBars p g p' g' =>
    obtain ⟨h1, h2, h3⟩ := h.gradient' hi; obtain ⟨h1', h2', h3'⟩ := h.gradient' hj
    exact (no_hash ((split_hash h1 h1' hk).2 ▸ h2)).elim
  case gradBars.grad p g p' g' =>
    obtain ⟨h1, h2, h3⟩ := h.gradient' hi; obtain ⟨h1', h2', h3'⟩ := h.gradient' hj
    exact (no_hash ((split_hash h1 h1' hk).2 ▸ h2')).elim
  case gradBars.gradBars p g p' g' =>
    obtain ⟨h1, h2, h3⟩ := h.gradient' hi; obtain ⟨h1', h2', h3'⟩ := h.gradient' hj
    obtain ⟨e1, e2⟩ := split_hash h1 h1' hk
    rw [String.toList_inj.1 e1, String.toList_inj.1 (split_hash h2 h2' e2).1]

/-! ### What a part of `refresh` does -/

/-- Whether `d` is of the kind that belongs to the item. -/
def Item.Kind (i : Item) (d : Drawn T) : Prop :=
  match i, d with
  | .gate _, .curve _ | .param _, .curve _ | .grad _ _, .curve _ => True
  | .paramBars _, .bars _ _ | .gradBars _ _, .bars _ _ => True
  | _, _ => False

/-- The part `f` changes only the keys of the items in `S`; if it raises nothing, and all of them were shown as
they should be before, then they are as they should be according to `R`. -/
structure Sets (R : Item → Option (Drawn T) → Prop) (f : Part T) (S : Item → Prop) : Prop where
  frame : ∀ p k, (∀ i, S i → i.key ≠ k) → (f p).1 k = p k
  kind : ∀ p, (∀ i, S i → ∀ d, p i.key = some d → i.Kind d) → ∀ i, S i → ∀ d, (f p).1 i.key = some d → i.Kind d
  result : ∀ p, (∀ i, S i → ∀ d, p i.key = some d → i.Kind d) → (f p).2 = .ok () → ∀ i, S i → R i ((f p).1 i.key)

theorem Sets.congr {R : Item → Option (Drawn T) → Prop} {f : Part T} {S S' : Item → Prop} (h : Sets R f S)
    (hS : ∀ i, S i ↔ S' i) : Sets R f S' := by
  have : S = S' := funext fun i => propext (hS i)
  exact this ▸ h

theorem next_fst (f g : Part T) (p : Plots T) :
    (∃ e, (f p).2 = .error e ∧ Part.next f g p = ((f p).1, .error e)) ∨
      ((f p).2 = .ok () ∧ Part.next f g p = g (f p).1) := by
  unfold Part.next
  rcases h : f p with ⟨p', e | u⟩
  · exact .inl ⟨e, rfl, rfl⟩
  · exact .inr ⟨rfl, rfl⟩

theorem Sets.next {R : Item → Option (Drawn T) → Prop} {f g : Part T} {S S' : Item → Prop} (hf : Sets R f S)
    (hg : Sets R g S') (hd : ∀ i j, S i → S' j → i.key ≠ j.key) : Sets R (Part.next f g) (fun i => S i ∨ S' i) := by
  refine ⟨fun p k hk => ?_, fun p hp i hi d hd' => ?_, fun p hp hok i hi => ?_⟩
  · have h1 := hf.frame p k fun i hi => hk i (.inl hi)
    rcases next_fst f g p with ⟨e, -, h⟩ | ⟨-, h⟩
    · rw [h]; exact h1
    · rw [h, hg.frame _ k fun i hi => hk i (.inr hi)]; exact h1
  · have hk1 := hf.kind p fun i hi => hp i (.inl hi)
    rcases next_fst f g p with ⟨e, -, h⟩ | ⟨-, h⟩
    · rw [h] at hd'
      rcases hi with hi | hi
      · exact hk1 i hi d hd'
      · rw [hf.frame p i.key fun j hj => hd j i hj hi] at hd'
        exact hp i (.inr hi) d hd'
    · rw [h] at hd'
      rcases hi with hi | hi
      · rw [hg.frame _ i.key fun j hj => (hd i j hi hj).symm] at hd'
        exact hk1 i hi d hd'
      · refine hg.kind _ (fun j hj d hd'' => ?_) i hi d hd'
        rw [hf.frame p j.key fun l hl => hd l j hl hj] at hd''
        exact hp j (.inr hj) d hd''
  · rcases next_fst f g p with ⟨e, -, h⟩ | ⟨hf2, h⟩
    · rw [h] at hok; cases hok
    · rw [h] at hok ⊢
      rcases hi with hi | hi
      · rw [hg.frame _ i.key fun j hj => (hd i j hi hj).symm]
        exact hf.result p (fun i hi => hp i (.inl hi)) hf2 i hi
      · refine hg.result _ (fun j hj d hd'' => ?_) hok i hi
        rw [hf.frame p j.key fun l hl => hd l j hl hj] at hd''
        exact hp j (.inr hj) d hd''

theorem Sets.forEach {A : Type} {R : Item → Option (Drawn T) → Prop} {f : A → Part T} {S : A → Item → Prop} :
    ∀ {l : List A}, (∀ a ∈ l, Sets R (f a) (S a)) →
      l.Pairwise (fun a b => ∀ i j, S a i → S b j → i.key ≠ j.key) →
      Sets R (forEach f l) (fun i => ∃ a ∈ l, S a i)
  | [], _, _ => ⟨fun _ _ _ => rfl, fun _ _ i hi => by simp at hi, fun _ _ _ i hi => by simp at hi⟩
  | a :: l, h, hp => by
    rw [List.pairwise_cons] at hp
    have h1 := (h a List.mem_cons_self).next (Sets.forEach (fun b hb => h b (List.mem_cons_of_mem _ hb)) hp.2)
      (fun i j hi ⟨b, hb, hj⟩ => hp.1 b hb i j hi hj)
    exact h1.congr fun i => by simp

theorem Sets.fetch {A : Type} {R : Item → Option (Drawn T) → Prop} {x : Except PyErr A} {f : A → Part T}
    {S : Item → Prop} (h : ∀ a, x = .ok a → Sets R (f a) S) : Sets R (Plot.fetch x f) S := by
  cases x with
  | error e => exact ⟨fun _ _ _ => rfl, fun p hp => hp, fun p _ hok => by cases hok⟩
  | ok a => exact ⟨(h a rfl).frame, (h a rfl).kind, (h a rfl).result⟩

theorem Sets.remove {R : Item → Option (Drawn T) → Prop} {i : Item} {k : String} (hk : i.key = k) (h : R i none) :
    Sets R (Plot.remove k : Part T) (fun j => j = i) := by
  subst hk
  refine ⟨fun p k hk => ?_, fun p _ j hj d hd => ?_, fun p _ _ j hj => ?_⟩
  · have : k ≠ i.key := (hk i rfl).symm
    simp [Plot.remove, Function.update_of_ne this]
  · subst hj; simp [Plot.remove] at hd
  · subst hj; simpa [Plot.remove] using h

theorem Sets.curve {R : Item → Option (Drawn T) → Prop} {i : Item} {k : String} {d : T} (hk : i.key = k)
    (hi : ∀ d : Drawn T, i.Kind d ↔ ∃ x, d = .curve x) (h : R i (some (.curve d))) :
    Sets R (drawCurve k d) (fun j => j = i) := by
  subst hk
  have key : ∀ p : Plots T, (∀ j, j = i → ∀ d, p j.key = some d → j.Kind d) →
      drawCurve i.key d p = (Function.update p i.key (some (.curve d)), .ok ()) := by
    intro p hp
    unfold drawCurve
    rcases hx : p i.key with _ | ⟨⟩ | ⟨x, y⟩
    · rfl
    · rfl
    · obtain ⟨z, hz⟩ := (hi _).1 (hp i rfl _ hx)
      cases hz
  refine ⟨fun p k hk => ?_, fun p hp j hj x hx => ?_, fun p hp _ j hj => ?_⟩
  · have : k ≠ i.key := (hk i rfl).symm
    unfold drawCurve
    split <;> simp [Function.update_of_ne this]
  · subst hj
    rw [key p hp] at hx
    simp only [Function.update_self, Option.some.injEq] at hx
    exact (hi x).2 ⟨d, hx.symm⟩
  · subst hj
    rw [key p hp]
    simpa using h

theorem Sets.bars {R : Item → Option (Drawn T) → Prop} {i : Item} {k : String} {d e : T} (hk : i.key = k)
    (hi : ∀ d : Drawn T, i.Kind d ↔ ∃ x y, d = .bars x y) (h : R i (some (.bars d e))) :
    Sets R (drawBars k d e) (fun j => j = i) := by
  subst hk
  have key : ∀ p : Plots T, (∀ j, j = i → ∀ d, p j.key = some d → j.Kind d) →
      drawBars i.key d e p = (Function.update p i.key (some (.bars d e)), .ok ()) := by
    intro p hp
    unfold drawBars
    rcases hx : p i.key with _ | ⟨x⟩ | ⟨x, y⟩
    · rfl
    · obtain ⟨z, z', hz⟩ := (hi _).1 (hp i rfl _ hx)
      cases hz
    · rfl
  refine ⟨fun p k hk => ?_, fun p hp j hj x hx => ?_, fun p hp _ j hj => ?_⟩
  · have : k ≠ i.key := (hk i rfl).symm
    unfold drawBars
    split <;> simp [Function.update_of_ne this]
  · subst hj
    rw [key p hp] at hx
    simp only [Function.update_self, Option.some.injEq] at hx
    exact (hi x).2 ⟨d, e, hx.symm⟩
  · subst hj
    rw [key p hp]
    simpa using h

/-! ### The three loops -/

/-- What the item should be. -/
def Right (H : Source T) (sel : Selection) (i : Item) (o : Option (Drawn T)) : Prop := ∀ d, o = some d ↔ Wanted H sel i d

theorem right_some {H : Source T} {sel : Selection} {i : Item} {d : Drawn T} (h : ∀ d', d' = d ↔ Wanted H sel i d') :
    Right H sel i (some d) := fun d' => by rw [← h d', Option.some.injEq, eq_comm]

theorem right_none {H : Source T} {sel : Selection} {i : Item} (h : ∀ d', ¬ Wanted H sel i d') :
    Right H sel i none := fun d' => by simp [h d']

theorem unique_of_nodup {A B : Type} : ∀ {l : List (A × B)} (_ : (l.map Prod.fst).Nodup) {a : A} {b c : B},
    (a, b) ∈ l → (a, c) ∈ l → b = c
  | [], _, _, _, _, h, _ => by simp at h
  | (x, y) :: l, hn, a, b, c, hb, hc => by
    simp only [List.map_cons, List.nodup_cons] at hn
    simp only [List.mem_cons, Prod.mk.injEq] at hb hc
    rcases hb with ⟨rfl, rfl⟩ | hb <;> rcases hc with ⟨h, rfl⟩ | hc
    · rfl
    · exact absurd (List.mem_map_of_mem (f := Prod.fst) hc) hn.1
    · subst h; exact absurd (List.mem_map_of_mem (f := Prod.fst) hb) hn.1
    · exact unique_of_nodup hn.2 hb hc

theorem pairwise_of_nodup {A B : Type} {l : List (A × B)} (hn : (l.map Prod.fst).Nodup) :
    l.Pairwise (fun a b => a.1 ≠ b.1) := List.pairwise_map.1 hn

section
variable {H : Source T} {sel : Selection} (ho : sel.Once)
include ho

theorem gate_sets {x : String × Bool} (hx : x ∈ sel.gates) :
    Sets (Right H sel) (gatePart H x) (fun i => i = .gate x.1) := by
  obtain ⟨g, b⟩ := x
  unfold gatePart
  cases b with
  | false =>
    refine Sets.remove rfl (right_none ?_)
    rintro d ⟨h, -⟩
    cases unique_of_nodup ho.gates hx h
  | true =>
    refine Sets.fetch fun d hd => Sets.curve rfl (fun d => by cases d <;> simp [Item.Kind]) (right_some fun d' => ?_)
    constructor
    · rintro rfl; exact ⟨hx, d, hd, rfl⟩
    · rintro ⟨-, y, hy, rfl⟩
      rw [hd] at hy
      cases hy
      rfl

theorem param_sets {x : String × Choice} (hx : x ∈ sel.params) (hn : ∀ p : String, (Item.param p).key ≠ (Item.paramBars p).key) :
    Sets (Right H sel) (paramPart H x) (fun i => i = .param x.1 ∨ i = .paramBars x.1) := by
  obtain ⟨p, c⟩ := x
  have hu : ∀ c', (p, c') ∈ sel.params → c = c' := fun c' h => unique_of_nodup ho.params hx h
  have hdis : ∀ i j, i = Item.param p → j = Item.paramBars p → i.key ≠ j.key := by
    rintro _ _ rfl rfl; exact hn p
  have hline : ∀ d, H.param p = .ok d → c.plots = true →
      Sets (Right H sel) (drawCurve p d) (fun i => i = .param p) := by
    intro d hd hc
    refine Sets.curve rfl (fun d => by cases d <;> simp [Item.Kind]) (right_some fun d' => ?_)
    constructor
    · rintro rfl
      refine ⟨?_, d, hd, rfl⟩
      cases c
      · cases hc
      · exact .inl hx
      · exact .inr hx
    · rintro ⟨-, y, hy, rfl⟩
      rw [hd] at hy
      cases hy
      rfl
  unfold paramPart
  cases c with
  | nothing =>
    refine Sets.next (Sets.remove rfl (right_none ?_)) (Sets.remove rfl (right_none ?_)) hdis
    · rintro d ⟨h | h, -⟩ <;> cases hu _ h
    · rintro d ⟨h, -⟩; cases hu _ h
  | plot =>
    refine Sets.fetch fun d hd => Sets.next (hline d hd rfl) (Sets.remove rfl (right_none ?_)) hdis
    rintro d ⟨h, -⟩; cases hu _ h
  | plotError =>
    refine Sets.fetch fun d hd => Sets.next (hline d hd rfl) (Sets.fetch fun e he => Sets.bars rfl
      (fun d => by cases d <;> simp [Item.Kind]) (right_some fun d' => ?_)) hdis
    constructor
    · rintro rfl; exact ⟨hx, d, e, hd, he, rfl⟩
    · rintro ⟨-, y, z, hy, hz, rfl⟩
      rw [hd] at hy
      rw [he] at hz
      cases hy; cases hz; rfl

theorem grad_sets {p : String} {l : List (String × Choice)} (hl : (p, l) ∈ sel.grads) {f e : String → Option T}
    (hf : H.grads p = .ok f) (he : H.gradErrors p = .ok e) {x : String × Choice} (hx : x ∈ l)
    (hn : (Item.grad p x.1).key ≠ (Item.gradBars p x.1).key) :
    Sets (Right H sel) (gradPart p f e x) (fun i => i = .grad p x.1 ∨ i = .gradBars p x.1) := by
  obtain ⟨g, c⟩ := x
  have hu : ∀ l' c', (p, l') ∈ sel.grads → (g, c') ∈ l' → c = c' := by
    intro l' c' h1 h2
    cases unique_of_nodup ho.grads hl h1
    exact unique_of_nodup (ho.grad p l hl) hx h2
  have hdis : ∀ i j, i = Item.grad p g → j = Item.gradBars p g → i.key ≠ j.key := by
    rintro _ _ rfl rfl; exact hn
  have hline : ∀ d, f g = some d → c.plots = true →
      Sets (Right H sel) (drawCurve (gradKey p g) d) (fun i => i = .grad p g) := by
    intro d hd hc
    refine Sets.curve rfl (fun d => by cases d <;> simp [Item.Kind]) (right_some fun d' => ?_)
    constructor
    · rintro rfl
      refine ⟨l, hl, ?_, f, d, hf, hd, rfl⟩
      cases c
      · cases hc
      · exact .inl hx
      · exact .inr hx
    · rintro ⟨-, -, -, f', y, hf', hy, rfl⟩
      rw [hf] at hf'
      cases hf'
      rw [hd] at hy
      cases hy
      rfl
  unfold gradPart
  cases c with
  | nothing =>
    refine Sets.next (Sets.remove rfl (right_none ?_)) (Sets.remove rfl (right_none ?_)) hdis
    · rintro d ⟨l', hl', h | h, -⟩ <;> cases hu _ _ hl' h
    · rintro d ⟨l', hl', h, -⟩; cases hu _ _ hl' h
  | plot =>
    refine Sets.fetch fun d hd => ?_
    have hd' : f g = some d := by
      dsimp only at hd
      cases h : f g <;> rw [h] at hd <;> simp at hd
      rw [hd]
    refine Sets.next (hline d hd' rfl) (Sets.remove rfl (right_none ?_)) hdis
    rintro d ⟨l', hl', h, -⟩; cases hu _ _ hl' h
  | plotError =>
    refine Sets.fetch fun d hd => ?_
    have hd' : f g = some d := by
      dsimp only at hd
      cases h : f g <;> rw [h] at hd <;> simp at hd
      rw [hd]
    refine Sets.next (hline d hd' rfl) ?_ hdis
    rcases hy : e g with _ | y
    · simp only [Choice.errors]
      refine Sets.remove rfl (right_none ?_)
      rintro d ⟨l', hl', h, f', e', x, y, -, he', -, hy', -⟩
      rw [he] at he'
      cases he'
      rw [hy] at hy'
      cases hy'
    · simp only [Choice.errors]
      refine Sets.bars rfl (fun d => by cases d <;> simp [Item.Kind]) (right_some fun d' => ?_)
      constructor
      · rintro rfl; exact ⟨l, hl, hx, f, e, d, y, hf, he, hd', hy, rfl⟩
      · rintro ⟨-, -, -, f', e', x, y', hf', he', hx', hy', rfl⟩
        rw [hf] at hf'
        rw [he] at he'
        cases hf'; cases he'
        rw [hd'] at hx'
        rw [hy] at hy'
        cases hx'; cases hy'; rfl

theorem refresh_sets (hn : sel.Named) : Sets (Right H sel) (refresh H sel) sel.Offers := by
  have hoff : ∀ p l g c, (p, l) ∈ sel.grads → (g, c) ∈ l → sel.Offers (.grad p g) ∧ sel.Offers (.gradBars p g) :=
    fun p l g c h1 h2 => ⟨⟨l, c, h1, h2⟩, ⟨l, c, h1, h2⟩⟩
  have h1 : Sets (Right H sel) (forEach (gatePart H) sel.gates) (fun i => ∃ x ∈ sel.gates, i = .gate x.1) :=
    Sets.forEach (fun x hx => gate_sets ho hx) ((pairwise_of_nodup ho.gates).imp fun {a b} hab => by
      rintro _ _ rfl rfl; exact hab)
  have h2 : Sets (Right H sel) (forEach (paramPart H) sel.params)
      (fun i => ∃ x ∈ sel.params, i = .param x.1 ∨ i = .paramBars x.1) := by
    refine Sets.forEach (fun x hx => param_sets ho hx fun p => ?_)
      (List.Pairwise.imp_of_mem (fun {a b} ha hb hab => ?_) (pairwise_of_nodup ho.params))
    · intro h
      have := congrArg String.length h
      simp [Item.key] at this
    · have hoffers : ∀ x ∈ sel.params, sel.Offers (.param x.1) ∧ sel.Offers (.paramBars x.1) :=
        fun x hx => ⟨⟨x.2, hx⟩, ⟨x.2, hx⟩⟩
      rintro _ _ (rfl | rfl) (rfl | rfl) h
      · exact hab (by have := key_injective hn (hoffers a ha).1 (hoffers b hb).1 h; simpa using this)
      · have := key_injective hn (hoffers a ha).1 (hoffers b hb).2 h; cases this
      · have := key_injective hn (hoffers a ha).2 (hoffers b hb).1 h; cases this
      · exact hab (by have := key_injective hn (hoffers a ha).2 (hoffers b hb).2 h; simpa using this)
  have h3 : Sets (Right H sel) (forEach (gradsPart H) sel.grads)
      (fun i => ∃ x ∈ sel.grads, ∃ y ∈ x.2, i = .grad x.1 y.1 ∨ i = .gradBars x.1 y.1) := by
    refine Sets.forEach (fun x hx => ?_)
      (List.Pairwise.imp_of_mem (fun {a b} ha hb hab => ?_) (pairwise_of_nodup ho.grads))
    · refine Sets.fetch fun f hf => Sets.fetch fun e he => Sets.forEach
        (fun y hy => grad_sets ho hx hf he hy fun h => ?_)
        (List.Pairwise.imp_of_mem (fun {a b} ha hb hab => ?_) (pairwise_of_nodup (ho.grad x.1 x.2 hx)))
      · have := key_injective hn (hoff x.1 x.2 y.1 y.2 hx hy).1 (hoff x.1 x.2 y.1 y.2 hx hy).2 h
        cases this
      · have oa := hoff x.1 x.2 a.1 a.2 hx ha
        have ob := hoff x.1 x.2 b.1 b.2 hx hb
        rintro _ _ (rfl | rfl) (rfl | rfl) h
        · exact hab (by have := key_injective hn oa.1 ob.1 h; simpa using this)
        · have := key_injective hn oa.1 ob.2 h; cases this
        · have := key_injective hn oa.2 ob.1 h; cases this
        · exact hab (by have := key_injective hn oa.2 ob.2 h; simpa using this)
    · rintro _ _ ⟨y, hy, hi⟩ ⟨z, hz, hj⟩ h
      have oa := hoff a.1 a.2 y.1 y.2 ha hy
      have ob := hoff b.1 b.2 z.1 z.2 hb hz
      rcases hi with rfl | rfl <;> rcases hj with rfl | rfl
      · exact hab (by have := key_injective hn oa.1 ob.1 h; simp at this; exact this.1)
      · have := key_injective hn oa.1 ob.2 h; cases this
      · have := key_injective hn oa.2 ob.1 h; cases this
      · exact hab (by have := key_injective hn oa.2 ob.2 h; simp at this; exact this.1)
  have h23 := h2.next h3 (by
    rintro _ _ ⟨x, hx, hi⟩ ⟨y, hy, z, hz, hj⟩ h
    have oa := hoff y.1 y.2 z.1 z.2 hy hz
    rcases hi with rfl | rfl <;> rcases hj with rfl | rfl
    · have := key_injective hn (i := .param x.1) ⟨x.2, hx⟩ oa.1 h; cases this
    · have := key_injective hn (i := .param x.1) ⟨x.2, hx⟩ oa.2 h; cases this
    · have := key_injective hn (i := .paramBars x.1) ⟨x.2, hx⟩ oa.1 h; cases this
    · have := key_injective hn (i := .paramBars x.1) ⟨x.2, hx⟩ oa.2 h; cases this)
  have h123 := h1.next h23 (by
    rintro _ _ ⟨x, hx, rfl⟩ (⟨y, hy, hj⟩ | ⟨y, hy, z, hz, hj⟩) h
    · rcases hj with rfl | rfl
      · have := key_injective hn (i := .gate x.1) (j := .param y.1) ⟨x.2, hx⟩ ⟨y.2, hy⟩ h; cases this
      · have := key_injective hn (i := .gate x.1) (j := .paramBars y.1) ⟨x.2, hx⟩ ⟨y.2, hy⟩ h; cases this
    · have oa := hoff y.1 y.2 z.1 z.2 hy hz
      rcases hj with rfl | rfl
      · have := key_injective hn (i := .gate x.1) ⟨x.2, hx⟩ oa.1 h; cases this
      · have := key_injective hn (i := .gate x.1) ⟨x.2, hx⟩ oa.2 h; cases this)
  refine h123.congr fun i => ?_
  cases i <;> simp [Selection.Offers]
  · exact ⟨fun ⟨a, b, h1, h2, e⟩ => ⟨b, e ▸ h1, h2⟩, fun ⟨l, h1, h2⟩ => ⟨_, l, h1, h2, rfl⟩⟩
  · exact ⟨fun ⟨a, b, h1, h2, e⟩ => ⟨b, e ▸ h1, h2⟩, fun ⟨l, h1, h2⟩ => ⟨_, l, h1, h2, rfl⟩⟩

end

/-- A refresh keeps the plot regular, whether it raises or not. -/
theorem refresh_regular {H : Source T} {sel : Selection} (ho : sel.Once) (hn : sel.Named) {p : Plots T}
    (hp : Regular sel p) : Regular sel (refresh H sel p).1 := by
  have hs := refresh_sets (H := H) ho hn
  have hkind : ∀ i, sel.Offers i → ∀ d, p i.key = some d → i.Kind d := by
    intro i hi d hd
    obtain ⟨j, hj, hk, hm⟩ := hp _ d hd
    obtain rfl := key_injective hn hj hi hk
    cases j <;> cases d <;> simp_all [Item.Kind]
  intro k d hd
  by_cases h : ∃ i, sel.Offers i ∧ i.key = k
  · obtain ⟨i, hi, rfl⟩ := h
    have := hs.kind p hkind i hi d hd
    refine ⟨i, hi, rfl, ?_⟩
    cases i <;> cases d <;> simp_all [Item.Kind]
  · rw [hs.frame p k fun i hi hk => h ⟨i, hi, hk⟩] at hd
    obtain ⟨i, hi, hk, -⟩ := hp k d hd
    exact absurd ⟨i, hi, hk⟩ h

theorem refresh_displays {H : Source T} {sel : Selection} (ho : sel.Once) (hn : sel.Named) {p : Plots T}
    (hp : Regular sel p) (hok : (refresh H sel p).2 = .ok ()) : Displays H sel (refresh H sel p).1 := by
  have hs := refresh_sets (H := H) ho hn
  have hkind : ∀ i, sel.Offers i → ∀ d, p i.key = some d → i.Kind d := by
    intro i hi d hd
    obtain ⟨j, hj, hk, hm⟩ := hp _ d hd
    obtain rfl := key_injective hn hj hi hk
    cases j <;> cases d <;> simp_all [Item.Kind]
  refine ⟨fun i hi d => hs.result p hkind hok i hi d, fun k d hd => ?_⟩
  obtain ⟨i, hi, hk, -⟩ := refresh_regular ho hn hp k d hd
  exact ⟨i, hi, hk⟩

/-! ### When nothing is raised -/

/-- The part does not raise, if error bars are shown only where they belong. -/
def Calm (sel : Selection) (f : Part T) : Prop :=
  ∀ p, (∀ i, sel.Offers i → ∀ d, p i.key = some d → i.Kind d) →
    (f p).2 = .ok () ∧ ∀ i, sel.Offers i → ∀ d, (f p).1 i.key = some d → i.Kind d

theorem Calm.next {sel : Selection} {f g : Part T} (hf : Calm sel f) (hg : Calm sel g) : Calm sel (Part.next f g) := by
  intro p hp
  obtain ⟨h1, h2⟩ := hf p hp
  rcases next_fst f g p with ⟨e, h, -⟩ | ⟨-, h⟩
  · rw [h1] at h; cases h
  · rw [h]; exact hg _ h2

theorem Calm.forEach {sel : Selection} {A : Type} {f : A → Part T} : ∀ {l : List A}, (∀ a ∈ l, Calm sel (f a)) →
    Calm sel (Plot.forEach f l)
  | [], _ => fun _ hp => ⟨rfl, hp⟩
  | a :: _, h => (h a List.mem_cons_self).next (Calm.forEach fun b hb => h b (List.mem_cons_of_mem _ hb))

theorem Calm.of_update {sel : Selection} (hn : sel.Named) {i : Item} (hi : sel.Offers i) {f : Part T}
    (h : ∀ p, (∀ d, p i.key = some d → i.Kind d) → ∃ o : Option (Drawn T), (∀ d, o = some d → i.Kind d) ∧
      f p = (Function.update p i.key o, .ok ())) : Calm sel f := by
  intro p hp
  obtain ⟨o, ho, hf⟩ := h p (hp i hi)
  rw [hf]
  refine ⟨rfl, fun j hj d hd => ?_⟩
  by_cases hk : j.key = i.key
  · obtain rfl := key_injective hn hj hi hk
    simp only [Function.update_self] at hd
    exact ho d hd
  · simp only [Function.update_of_ne hk] at hd
    exact hp j hj d hd

theorem Calm.remove {sel : Selection} (hn : sel.Named) {i : Item} (hi : sel.Offers i) :
    Calm sel (Plot.remove i.key : Part T) := .of_update hn hi fun p _ => ⟨none, by simp, rfl⟩

theorem Calm.curve {sel : Selection} (hn : sel.Named) {i : Item} (hi : sel.Offers i) {d : T}
    (hk : ∀ d : Drawn T, i.Kind d ↔ ∃ x, d = .curve x) : Calm sel (drawCurve i.key d) :=
  .of_update hn hi fun p hp => ⟨some (.curve d), fun d' h => by cases h; exact (hk _).2 ⟨d, rfl⟩, by
    unfold drawCurve
    split
    · rename_i x y hx
      obtain ⟨z, hz⟩ := (hk _).1 (hp _ hx)
      cases hz
    · rfl⟩

theorem Calm.bars {sel : Selection} (hn : sel.Named) {i : Item} (hi : sel.Offers i) {d e : T}
    (hk : ∀ d : Drawn T, i.Kind d ↔ ∃ x y, d = .bars x y) : Calm sel (drawBars i.key d e) :=
  .of_update hn hi fun p hp => ⟨some (.bars d e), fun d' h => by cases h; exact (hk _).2 ⟨d, e, rfl⟩, by
    unfold drawBars
    split
    · rename_i x hx
      obtain ⟨z, z', hz⟩ := (hk _).1 (hp _ hx)
      cases hz
    · rfl⟩

theorem Calm.fetch {sel : Selection} {A : Type} {x : Except PyErr A} {a : A} (hx : x = .ok a) {f : A → Part T}
    (h : Calm sel (f a)) : Calm sel (Plot.fetch x f) := by
  subst hx; exact h

theorem refresh_calm {H : Source T} {sel : Selection} (hn : sel.Named) (hH : Available H sel) :
    Calm sel (refresh H sel) := by
  have kg : ∀ g (d : Drawn T), (Item.gate g).Kind d ↔ ∃ x, d = .curve x := fun g d => by cases d <;> simp [Item.Kind]
  have kp : ∀ g (d : Drawn T), (Item.param g).Kind d ↔ ∃ x, d = .curve x := fun g d => by cases d <;> simp [Item.Kind]
  have kpb : ∀ g (d : Drawn T), (Item.paramBars g).Kind d ↔ ∃ x y, d = .bars x y :=
    fun g d => by cases d <;> simp [Item.Kind]
  have kr : ∀ p g (d : Drawn T), (Item.grad p g).Kind d ↔ ∃ x, d = .curve x :=
    fun p g d => by cases d <;> simp [Item.Kind]
  have krb : ∀ p g (d : Drawn T), (Item.gradBars p g).Kind d ↔ ∃ x y, d = .bars x y :=
    fun p g d => by cases d <;> simp [Item.Kind]
  refine Calm.next (Calm.forEach ?_) (Calm.next (Calm.forEach ?_) (Calm.forEach ?_))
  · rintro ⟨g, b⟩ hx
    have ho : sel.Offers (.gate g) := ⟨b, hx⟩
    unfold gatePart
    cases b
    · exact Calm.remove hn ho
    · obtain ⟨d, hd⟩ := hH.gates g hx
      exact Calm.fetch hd (Calm.curve hn ho (kg g))
  · rintro ⟨p, c⟩ hx
    have ho : sel.Offers (.param p) := ⟨c, hx⟩
    have ho' : sel.Offers (.paramBars p) := ⟨c, hx⟩
    unfold paramPart
    cases c
    · exact (Calm.remove hn ho).next (Calm.remove hn ho')
    · obtain ⟨d, hd⟩ := hH.params p _ hx (by simp)
      exact Calm.fetch hd ((Calm.curve hn ho (kp p)).next (Calm.remove hn ho'))
    · obtain ⟨d, hd⟩ := hH.params p _ hx (by simp)
      obtain ⟨e, he⟩ := hH.errors p hx
      exact Calm.fetch hd ((Calm.curve hn ho (kp p)).next (Calm.fetch he (Calm.bars hn ho' (kpb p))))
  · rintro ⟨p, l⟩ hx
    obtain ⟨f, e, hf, he, hcol⟩ := hH.grads p l hx
    refine Calm.fetch hf (Calm.fetch he (Calm.forEach ?_))
    rintro ⟨g, c⟩ hg
    have ho : sel.Offers (.grad p g) := ⟨l, c, hx, hg⟩
    have ho' : sel.Offers (.gradBars p g) := ⟨l, c, hx, hg⟩
    unfold gradPart
    cases c
    · exact (Calm.remove hn ho).next (Calm.remove hn ho')
    · obtain ⟨d, hd⟩ := hcol g _ hg (by simp)
      exact Calm.fetch (a := d) (by simp [hd]) ((Calm.curve hn ho (kr p g)).next (Calm.remove hn ho'))
    · obtain ⟨d, hd⟩ := hcol g _ hg (by simp)
      refine Calm.fetch (a := d) (by simp [hd]) ((Calm.curve hn ho (kr p g)).next ?_)
      rcases hy : e g with _ | y
      · exact Calm.remove hn ho'
      · exact Calm.bars hn ho' (krb p g)

theorem regular_of_same {s t : Selection} (h : s.SameTree t) {p : Plots T} (hp : Regular s p) : Regular t p := by
  intro k d hd
  obtain ⟨i, hi, hk, hm⟩ := hp k d hd
  exact ⟨i, (h i).1 hi, hk, hm⟩

end Qtune.Gui.Plot
