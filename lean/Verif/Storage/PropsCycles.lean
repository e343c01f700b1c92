import Verif.Storage.Props
import Mathlib.Data.Fin.VecNotation

/-! # Cycles anywhere in the graph -/

namespace Qtune.Storage

variable {ν α : Type}

/-- `y` can be reached from `x` through members. -/
inductive Reaches (heap : ν → Obj ν α) : ν → ν → Prop
  | refl (x : ν) : Reaches heap x x
  | step {x y z : ν} : y ∈ (heap x).members → Reaches heap y z → Reaches heap x z

/-- The object is in the dict `serialized`. -/
def Registered (addr : ν → Nat) (s : WState α) (x : ν) : Prop := s.ser.lookup (addr x) ≠ none

/-- The object has members or can have some. -/
def IsGroup : Obj ν α → Prop
  | .dict _ => True
  | .list _ => True
  | .tuple _ => True
  | .inst _ _ => True
  | _ => False

theorem isGroup_of_member {o : Obj ν α} {c : ν} (h : c ∈ o.members) : IsGroup o := by
  cases o <;> simp_all [Obj.members, IsGroup]

/-- From `s` to `s'`: everything stays registered, and the members of what is new are registered. -/
structure Closed (addr : ν → Nat) (heap : ν → Obj ν α) (s s' : WState α) : Prop where
  mono : ∀ y, Registered addr s y → Registered addr s' y
  new : ∀ y, Registered addr s' y → ¬ Registered addr s y → ∀ c ∈ (heap y).members, IsGroup (heap c) →
    Registered addr s' c

theorem Closed.rfl' {addr : ν → Nat} {heap : ν → Obj ν α} {s s' : WState α} (h : s'.ser = s.ser) :
    Closed addr heap s s' :=
  ⟨fun y hy => by unfold Registered at *; rwa [h], fun y hy hn => absurd (by unfold Registered at *; rwa [← h]) hn⟩

theorem Closed.trans {addr : ν → Nat} {heap : ν → Obj ν α} {s₁ s₂ s₃ : WState α} (h : Closed addr heap s₁ s₂)
    (h' : Closed addr heap s₂ s₃) : Closed addr heap s₁ s₃ := by
  refine ⟨fun y hy => h'.mono y (h.mono y hy), fun y hy hn c hc hg => ?_⟩
  by_cases h2 : Registered addr s₂ y
  · exact h'.mono c (h.new y h2 hn c hc hg)
  · exact h'.new y hy h2 c hc hg

theorem put_ser {p : Path} {e : Entry α} {s s' : WState α} (h : s.put p e = .ok s') : s'.ser = s.ser := by
  unfold WState.put at h
  split at h
  · cases h
  · cases h; rfl

theorem registered_register {addr : ν → Nat} (haddr : Function.Injective addr) {s : WState α} {x y : ν} {p : Path} :
    Registered addr (s.register (addr x) p) y ↔ y = x ∨ Registered addr s y := by
  unfold Registered
  rw [register_lookup]
  by_cases h : y = x
  · subst h; simp
  · rw [if_neg (fun he => h (haddr he))]
    simp [h]

/-- What was written is registered with all its members. -/
theorem write_closed {addr : ν → Nat} (haddr : Function.Injective addr) {heap : ν → Obj ν α} (n : Nat) :
    ∀ p x s s', write addr heap n p x s = .ok s' →
      Closed addr heap s s' ∧ (IsGroup (heap x) → Registered addr s' x) := by
  induction n with
  | zero => intro p x s s' h; cases h
  | succ n ih =>
    have hall : ∀ p items s s', writeAll (write addr heap n) p items s = .ok s' →
        Closed addr heap s s' ∧ ∀ k c, (k, c) ∈ items → IsGroup (heap c) → Registered addr s' c := by
      intro p items
      induction items with
      | nil => intro s s' h; cases h; exact ⟨.rfl' rfl, fun k c hm => by simp at hm⟩
      | cons kc items ih' =>
        intro s s' h
        obtain ⟨k, c⟩ := kc
        unfold writeAll at h
        cases hw : write addr heap n (p ++ [k]) c s with
        | error e => rw [hw] at h; cases h
        | ok s₁ =>
          rw [hw] at h
          obtain ⟨h1, h2⟩ := ih _ _ _ _ hw
          obtain ⟨h3, h4⟩ := ih' s₁ s' h
          refine ⟨h1.trans h3, fun k' c' hm hg => ?_⟩
          rcases List.mem_cons.1 hm with hm | hm
          · cases hm
            exact h3.mono _ (h2 hg)
          · exact h4 k' c' hm hg
    intro p x s s' h
    -- the members are written and the object is registered after that
    have after : ∀ (items : List (String × ν)) (s₁ s₂ : WState α), s₁.ser = s.ser →
        items.map Prod.snd = (heap x).members → writeAll (write addr heap n) p items s₁ = .ok s₂ →
        Closed addr heap s (s₂.register (addr x) p) ∧ Registered addr (s₂.register (addr x) p) x := by
      intro items s₁ s₂ hs₁ hitems hw
      obtain ⟨h1, h2⟩ := hall p items s₁ s₂ hw
      have h3 := (Closed.rfl' (addr := addr) (heap := heap) hs₁).trans h1
      refine ⟨⟨fun y hy => (registered_register haddr).2 (.inr (h3.mono y hy)), fun y hy hn c hc hg => ?_⟩,
        (registered_register haddr).2 (.inl rfl)⟩
      rw [registered_register haddr] at hy ⊢
      rcases hy with rfl | hy
      · rw [← hitems] at hc
        obtain ⟨⟨k, c'⟩, hm, rfl⟩ := List.mem_map.1 hc
        exact .inr (h2 k c' hm hg)
      · exact .inr (h3.new y hy hn c hc hg)
    -- leaves
    have leaf : ∀ s₁ : WState α, s₁.ser = s.ser → (heap x).members = [] →
        Closed addr heap s (s₁.register (addr x) p) := by
      intro s₁ hs₁ hm
      have h3 := Closed.rfl' (addr := addr) (heap := heap) hs₁
      refine ⟨fun y hy => (registered_register haddr).2 (.inr (h3.mono y hy)), fun y hy hn c hc hg => ?_⟩
      rw [registered_register haddr] at hy ⊢
      rcases hy with rfl | hy
      · rw [hm] at hc; simp at hc
      · exact .inr (h3.new y hy hn c hc hg)
    unfold write at h
    split at h
    · rename_i q hq
      have hs := put_ser h
      refine ⟨.rfl' hs, fun _ => ?_⟩
      unfold Registered
      rw [hs, hq]
      simp
    · split at h
      · -- dict
        rename_i items ho
        split at h
        · cases h
        · rename_i s₁ h1
          split at h
          · cases h
          · rename_i s₂ h2
            cases h
            have := after items s₁ s₂ (put_ser h1) (by rw [ho]; rfl) h2
            exact ⟨this.1, fun _ => this.2⟩
      · -- list
        rename_i items ho
        split at h
        · cases h
        · rename_i s₁ h1
          split at h
          · cases h
          · rename_i s₂ h2
            cases h
            have := after (enumerate items) s₁ s₂ (put_ser h1) (by rw [ho]; exact enumerate_snd _) h2
            exact ⟨this.1, fun _ => this.2⟩
      · -- tuple
        rename_i items ho
        split at h
        · cases h
        · rename_i s₁ h1
          split at h
          · cases h
          · rename_i s₂ h2
            cases h
            have := after (enumerate items) s₁ s₂ (put_ser h1) (by rw [ho]; exact enumerate_snd _) h2
            exact ⟨this.1, fun _ => this.2⟩
      · -- inst
        rename_i cls kwargs ho
        split at h
        · cases h
        · rename_i s₁ h1
          obtain ⟨h2, h3⟩ := hall p kwargs _ s' h
          have hx : Registered addr s' x := h2.mono x ((registered_register haddr).2 (.inl rfl))
          refine ⟨⟨fun y hy => h2.mono y ((registered_register haddr).2 (.inr ?_)), fun y hy hn c hc hg => ?_⟩,
            fun _ => hx⟩
          · unfold Registered at *
            rwa [put_ser h1]
          · by_cases hyx : y = x
            · subst hyx
              rw [ho] at hc
              obtain ⟨⟨k, c'⟩, hm, rfl⟩ := List.mem_map.1 hc
              exact h3 k c' hm hg
            · refine h2.new y hy (fun hr => ?_) c hc hg
              rcases (registered_register haddr).1 hr with h | h
              · exact hyx h
              · apply hn
                unfold Registered at *
                rwa [put_ser h1] at h
      · rename_i ho
        split at h
        · cases h
        · rename_i s₁ h1
          cases h
          exact ⟨leaf s₁ (put_ser h1) (by rw [ho]; rfl), fun hg => by rw [ho] at hg; exact hg.elim⟩
      · rename_i ho
        split at h
        · cases h
        · rename_i s₁ h1
          cases h
          exact ⟨leaf s₁ (put_ser h1) (by rw [ho]; rfl), fun hg => by rw [ho] at hg; exact hg.elim⟩
      · rename_i ho
        exact ⟨.rfl' (put_ser h), fun hg => by rw [ho] at hg; exact hg.elim⟩
      · rename_i ho
        split at h
        · cases h
        · rename_i s₁ h1
          cases h
          exact ⟨leaf s₁ (put_ser h1) (by rw [ho]; rfl), fun hg => by rw [ho] at hg; exact hg.elim⟩
      · cases h

/-- **C55**, the cycles for which it holds: if somewhere in the graph there is a cycle of dicts, lists and tuples
(`C` are the objects on it), the graph is not saved: an error is raised for every recursion limit.
Missing: cycles through instances, see `cycles_refuted`. -/
theorem cycles_partial (addr : ν → Nat) (haddr : Function.Injective addr) (heap : ν → Obj ν α) (C : ν → Prop)
    (hcont : ∀ x, C x → IsContainer (heap x)) (hcyc : ∀ x, C x → ∃ c, c ∈ (heap x).members ∧ C c)
    (name : String) (x z : ν) (hreach : Reaches heap x z) (hz : C z) (limit : Nat) :
    ∃ e, save addr heap limit name x [] = .error e := by
  cases hw : write addr heap limit [name] x ⟨[], []⟩ with
  | error e => exact ⟨e, by simp [save, writeReserved, hw]⟩
  | ok s =>
    exfalso
    have hzg : IsGroup (heap z) := by
      have := hcont z hz
      cases ho : heap z <;> rw [ho] at this <;> simp_all [IsContainer, IsGroup]
    have hgroup : ∀ {x z}, Reaches heap x z → IsGroup (heap z) → IsGroup (heap x) := by
      intro x z h hg
      cases h with
      | refl => exact hg
      | step hm _ => exact isGroup_of_member hm
    obtain ⟨hcl, hx⟩ := write_closed haddr limit _ _ _ _ hw
    have hreg : ∀ {x z}, Reaches heap x z → IsGroup (heap z) → Registered addr s x → Registered addr s z := by
      intro x z h hg
      induction h with
      | refl => exact id
      | step hm h ih =>
        intro hx
        exact ih hg (hcl.new _ hx (by simp [Registered]) _ hm (hgroup h hg))
    have := hreg hreach hzg (hx (hgroup hreach hzg))
    exact this ((write_cycle haddr hcont hcyc limit [name] x ⟨[], []⟩ (fun _ _ => rfl)).2 s hw z hz)

/-- The hypotheses are met by an instance that has a list that contains itself through a dict. -/
example : ∃ e, save (fun x : Fin 3 => x.val)
    (![.inst "A" [("list", 1)], .list [2], .dict [("a", 1)]] : Fin 3 → Obj (Fin 3) Nat) 50 "x" 0 [] = .error e :=
  cycles_partial _ Fin.val_injective _ (fun x => x = 1 ∨ x = 2)
    (fun x h => by rcases h with rfl | rfl <;> simp [IsContainer])
    (fun x h => by rcases h with rfl | rfl <;> simp [Obj.members]) _ _ 1
    (.step (by simp [Obj.members]) (.refl _)) (.inl rfl) _

end Qtune.Storage
