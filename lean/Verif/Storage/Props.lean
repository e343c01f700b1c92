import Verif.Storage.FileLemmas
import Mathlib.Tactic.FinCases
import Mathlib.Data.Fintype.Basic
import Mathlib.Data.Fin.Basic

/-!
# Properties of the HDF5 storage

C52 round trip, C53 temporaries, C54 reserved objects, C55 cycles.
-/

namespace Qtune.Storage

variable {ν α : Type}

/-- C52.  Every acyclic graph can be saved and loaded; the loaded graph has the same structure and
contents; containers, instances and labelled data are shared exactly as before; different objects stay
different.  Missing: sharing of plain arrays is not kept, see `round_trip_refuted`. -/
theorem round_trip_partial (addr : ν → Nat) (haddr : Function.Injective addr) (heap : ν → Obj ν α)
    (hst : ∀ x, Storable (heap x)) (rank : ν → Nat)
    (hacyclic : ∀ x c, c ∈ (heap x).members → rank c < rank x)
    (order : List String → List String) (horder : ∀ l, (order l).Perm l)
    (name : String) (x : ν) (limit : Nat) (hlimit : 2 * rank x + 2 ≤ limit) :
    RoundTrip Memo addr heap order limit name x := by
  obtain ⟨file, items, after, R, h1, h2, h3, h4, h5, h6⟩ := save_load (before := []) (given := [])
    (reserved := []) (name := name) haddr (fun y _ => ⟨hst y, hacyclic y⟩) (by simp) (by simp) horder hlimit
    (by simp)
  simp only [List.map_nil] at h5
  obtain ⟨⟨k, r⟩, rfl⟩ : ∃ kr, items = [kr] := by
    have := h5.length_eq
    simp only [List.length_map, List.length_cons, List.length_nil] at this
    exact List.length_eq_one_iff.1 this
  have hk : k = name := by simpa using h5
  subst hk
  refine ⟨file, r, after, R, h1, h2, h6 k r x (by simp) (by simp), ?_, ?_⟩
  · refine ⟨h3.unchanged, fun y t hy _ => h3.same y t hy (by simp), fun _ _ _ h => h.elim,
      fun y z t _ _ => h3.injective y z t (by simp) (by simp)⟩
  · intro y t t' ht ht' hk
    exact h4 y t t' ht ht' (by simp) hk

/-- A list that contains the same array twice. -/
def sharedArray : Fin 2 → Obj (Fin 2) Nat
  | 0 => .list [1, 1]
  | 1 => .array 7

/-- C52 is false for arrays: a list with twice the same array is loaded as a list with two arrays. -/
theorem round_trip_refuted : ∀ limit, ¬ RoundTrip HasIdentity (fun x : Fin 2 => x.val) sharedArray id limit "x" 0 := by
  rintro limit ⟨file, r, after, R, h1, h2, h3, h4, h5⟩
  rcases limit with _ | _ | _ | limit
  · cases (show save (fun x : Fin 2 => x.val) sharedArray 0 "x" 0 [] = .error .recursionError from rfl).symm.trans h1
  · cases (show save (fun x : Fin 2 => x.val) sharedArray 1 "x" 0 [] = .error .recursionError from rfl).symm.trans h1
  · have hf := (show save (fun x : Fin 2 => x.val) sharedArray 2 "x" 0 [] = .ok
        [(["x", "1"], .ref ["x", "0"]), (["x", "0"], .array 7), (["x"], .group .list ["0", "1"])] from
      rfl).symm.trans h1
    cases Except.ok.inj hf
    cases (show load id 2 [(["x", "1"], .ref ["x", "0"]), (["x", "0"], Entry.array 7),
      (["x"], .group .list ["0", "1"])] [] [] = .error .recursionError from rfl).symm.trans h2
  · have hf := (show save (fun x : Fin 2 => x.val) sharedArray (limit + 3) "x" 0 [] = .ok
        [(["x", "1"], .ref ["x", "0"]), (["x", "0"], .array 7), (["x"], .group .list ["0", "1"])] from
      rfl).symm.trans h1
    cases Except.ok.inj hf
    have hl := (show load id (limit + 3) [(["x", "1"], .ref ["x", "0"]), (["x", "0"], Entry.array 7),
      (["x"], .group .list ["0", "1"])] [] [] = .ok ([("x", 0)], [.list [1, 2], .array 7, .array 7]) from
      rfl).symm.trans h2
    simp at hl
    obtain ⟨rfl, rfl⟩ := hl
    obtain ⟨-, o, ho, hs⟩ := h4.same 0 0 h3 id
    simp at ho
    subst ho
    simp only [sharedArray] at hs
    cases hs with
    | list hl =>
      cases hl with
      | cons ha hl =>
        cases hl with
        | cons hb hl =>
          exact absurd (h5 1 1 2 ha hb trivial) (by simp)

/-- C53 is false: there is an acyclic graph with two instances that create an array when they are stored
such that, if the second array gets the address of the first, the second instance is loaded with the
array of the first. -/
def twoInstances : Fin 5 → Obj (Fin 5) Nat
  | 0 => .list [1, 2]
  | 1 => .inst "KalmanGradient" [("initial_gradient", 3)]
  | 2 => .inst "KalmanGradient" [("initial_gradient", 4)]
  | 3 => .array 7
  | 4 => .array 8

def twoInstances.owner : Fin 5 → Option (Fin 5)
  | 3 => some 1
  | 4 => some 2
  | _ => none

def twoInstances.addr : Fin 5 → Nat
  | 0 => 0
  | 1 => 1
  | 2 => 2
  | 3 => 3
  | 4 => 3

theorem twoInstances.valid : ValidAddresses twoInstances twoInstances.owner twoInstances.addr := by
  have hr : ∀ i j : Fin 5, Reach twoInstances i j → i = 1 → j = 1 ∨ j = 3 := by
    intro i j h hi
    induction h with
    | refl => exact Or.inl hi
    | step h hz ih =>
      rcases ih with rfl | rfl <;> simp [twoInstances, Obj.members] at hz
      exact Or.inr hz
  have hr' : ∀ i j : Fin 5, Reach twoInstances i j → i = 2 → j = 2 ∨ j = 4 := by
    intro i j h hi
    induction h with
    | refl => exact Or.inl hi
    | step h hz ih =>
      rcases ih with rfl | rfl <;> simp [twoInstances, Obj.members] at hz
      exact Or.inr hz
  have h12 : ¬ Reach twoInstances 1 2 := fun h => by
    have := hr 1 2 h rfl
    revert this; decide
  have h21 : ¬ Reach twoInstances 2 1 := fun h => by
    have := hr' 2 1 h rfl
    revert this; decide
  intro x y h
  by_cases hxy : x = y
  · exact Or.inl hxy
  · right
    have : (x = 3 ∧ y = 4) ∨ (x = 4 ∧ y = 3) := by
      revert x y
      decide
    rcases this with ⟨rfl, rfl⟩ | ⟨rfl, rfl⟩
    · exact ⟨1, 2, rfl, rfl, h12, h21⟩
    · exact ⟨2, 1, rfl, rfl, h21, h12⟩

/-- What is loaded: both instances contain the array 7. -/
theorem temporaries_refuted : ∃ (heap : Fin 5 → Obj (Fin 5) Nat) (owner : Fin 5 → Option (Fin 5))
    (addr : Fin 5 → Nat) (rank : Fin 5 → Nat), (∀ x, Storable (heap x)) ∧
    (∀ x c, c ∈ (heap x).members → rank c < rank x) ∧ ValidAddresses heap owner addr ∧
    (∀ limit, ¬ RoundTrip (fun _ => False) addr heap id limit "x" 0) := by
  refine ⟨twoInstances, twoInstances.owner, twoInstances.addr, fun x => 4 - x.val, ?_, ?_,
    twoInstances.valid, ?_⟩
  · intro x
    fin_cases x <;> simp [twoInstances, Storable]
  · intro x c hc
    fin_cases x <;> simp [twoInstances, Obj.members] at hc
    · rcases hc with rfl | rfl <;> simp
    · subst hc; simp
    · subst hc; simp
  · rintro limit ⟨file, r, after, R, h1, h2, h3, h4, -⟩
    by_cases hl : limit < 3
    · have : limit = 0 ∨ limit = 1 ∨ limit = 2 := by omega
      rcases this with rfl | rfl | rfl
      · cases (show save twoInstances.addr twoInstances 0 "x" 0 [] = .error .recursionError from
          rfl).symm.trans h1
      · cases (show save twoInstances.addr twoInstances 1 "x" 0 [] = .error .recursionError from
          rfl).symm.trans h1
      · cases (show save twoInstances.addr twoInstances 2 "x" 0 [] = .error .recursionError from
          rfl).symm.trans h1
    · obtain ⟨n, rfl⟩ : ∃ n, limit = n + 3 := ⟨limit - 3, by omega⟩
      have hf := (show save twoInstances.addr twoInstances (n + 3) "x" 0 [] = .ok
          [(["x", "1", "initial_gradient"], .ref ["x", "0", "initial_gradient"]),
          (["x", "1"], .group (.inst "KalmanGradient") ["initial_gradient"]),
          (["x", "0", "initial_gradient"], Entry.array 7),
          (["x", "0"], .group (.inst "KalmanGradient") ["initial_gradient"]),
          (["x"], .group .list ["0", "1"])] from rfl).symm.trans h1
      cases Except.ok.inj hf
      rcases n with _ | n
      · cases (show load id 3 [(["x", "1", "initial_gradient"], .ref ["x", "0", "initial_gradient"]),
          (["x", "1"], .group (.inst "KalmanGradient") ["initial_gradient"]),
          (["x", "0", "initial_gradient"], Entry.array 7),
          (["x", "0"], .group (.inst "KalmanGradient") ["initial_gradient"]),
          (["x"], .group .list ["0", "1"])] [] [] = .error .recursionError from rfl).symm.trans h2
      · have hl := (show load id (n + 4) [(["x", "1", "initial_gradient"], .ref ["x", "0", "initial_gradient"]),
          (["x", "1"], .group (.inst "KalmanGradient") ["initial_gradient"]),
          (["x", "0", "initial_gradient"], Entry.array 7),
          (["x", "0"], .group (.inst "KalmanGradient") ["initial_gradient"]),
          (["x"], .group .list ["0", "1"])] [] [] = .ok ([("x", 0)], [.list [2, 4], .array 7,
          .inst "KalmanGradient" [("initial_gradient", 1)], .array 7,
          .inst "KalmanGradient" [("initial_gradient", 3)]]) from rfl).symm.trans h2
        simp at hl
        obtain ⟨rfl, rfl⟩ := hl
        obtain ⟨-, o, ho, hs⟩ := h4.same 0 0 h3 id
        simp at ho
        subst ho
        simp only [twoInstances] at hs
        cases hs with
        | list hl =>
          cases hl with
          | cons _ hl =>
            cases hl with
            | cons hb hl =>
              obtain ⟨-, o, ho, hs⟩ := h4.same 2 4 hb id
              simp at ho
              subst ho
              simp only [twoInstances] at hs
              cases hs with
              | inst hi =>
                obtain ⟨r, hr, hR⟩ := hi.values "initial_gradient" 4 (by simp)
                simp at hr
                subst hr
                obtain ⟨-, o, ho, hs⟩ := h4.same 4 3 hR id
                simp at ho
                subst ho
                simp only [twoInstances] at hs
                cases hs

/-- C54.  For every acyclic graph, reserved objects and given objects: the file is saved and loaded; for a
reserved object the given object of the same name is used wherever it occurs, and every other object is a
new object with the same structure and contents. -/
theorem reserved_replaced (addr : ν → Nat) (haddr : Function.Injective addr) (heap : ν → Obj ν α)
    (reserved : List (String × ν)) (hkeys : (reserved.map Prod.fst).Nodup)
    (hst : ∀ x, (∀ k, (k, x) ∉ reserved) → Storable (heap x)) (rank : ν → Nat)
    (hacyclic : ∀ x, (∀ k, (k, x) ∉ reserved) → ∀ c, c ∈ (heap x).members → rank c < rank x)
    (order : List String → List String) (horder : ∀ l, (order l).Perm l)
    (name : String) (hname : name ∉ reserved.map Prod.fst) (x : ν)
    (limit : Nat) (hlimit : 2 * rank x + 2 ≤ limit)
    (before : List (Obj Nat α)) (given : List (String × Nat))
    (hgiven : ∀ k, k ∈ reserved.map Prod.fst → ∃ r, given.lookup k = some r ∧ r < before.length) :
    ∃ file items after R,
      save addr heap limit name x (reserved.map fun c => (c.1, addr c.2)) = .ok file ∧
      load order limit file before given = .ok (items, after) ∧
      (items.map Prod.fst).Perm (name :: reserved.map Prod.fst) ∧
      (∀ r, (name, r) ∈ items → R x r) ∧
      IsCopy heap before after (fun y r => ∃ k, (k, y) ∈ reserved ∧ given.lookup k = some r)
        (fun y => ∃ k, (k, y) ∈ reserved) R ∧
      SharingKept heap (fun y r => R y r ∧ ¬ ∃ k, (k, y) ∈ reserved) Memo := by
  obtain ⟨file, items, after, R, h1, h2, h3, h4, h5, h6⟩ := save_load (before := before) (given := given)
    (name := name) (x := x) haddr (fun y hy => ⟨hst y hy, hacyclic y hy⟩) hkeys hname horder hlimit
    (fun k hk => by obtain ⟨r, hr, -⟩ := hgiven k hk; rw [hr]; simp)
  refine ⟨file, items, after, R, h1, h2, h5, fun r hr => h6 name r x hr (by simp), h3, ?_⟩
  rintro y r r' ⟨hr, hy⟩ ⟨hr', -⟩ hm
  exact h4 y r r' hr hr' hy hm

/-- C54: a reserved object has to be given.  If a file was saved with a reserved object and no object of this name is
given on loading, `from_hdf5` raises `KeyError`, whatever else is in the file. -/
theorem reserved_required (addr : ν → Nat) (heap : ν → Obj ν α) (limit : Nat) (name : String) (x : ν)
    (reserved : List (String × Nat)) (file : List (Path × Entry α))
    (hsave : save addr heap limit name x reserved = .ok file) (k : String) (hk : k ∈ reserved.map Prod.fst)
    (order : List String → List String) (limit' : Nat) (before : List (Obj Nat α)) (given : List (String × Nat))
    (hgiven : given.lookup k = none) : load order limit' file before given = .error .keyError := by
  unfold save at hsave
  split at hsave
  · cases hsave
  · rename_i s h1
    split at hsave
    · cases hsave
    · rename_i s' h2
      cases hsave
      unfold load
      rw [readReserved_missing hgiven _ _ (write_keeps addr heap limit _ _ _ _ h2 ((writeReserved_mem _ _ _ h1).2 k hk))]

/-- A list with an experiment, a dict that contains the experiment, and twice the same dict. -/
def withExperiment : Fin 3 → Obj (Fin 3) Nat
  | 0 => .list [2, 1, 1]
  | 1 => .dict [("experiment", 2), ("again", 2)]
  | 2 => .other

example : ∃ file items after,
    save (fun x : Fin 3 => x.val) withExperiment 10 "x" 0 [("exp", 2)] = .ok file ∧
    load id 10 file [.other] [("exp", 0)] = .ok (items, after) ∧ items = [("x", 1), ("exp", 0)] ∧
    after[1]? = some (.list [0, 2, 2]) ∧ after[2]? = some (.dict [("experiment", 0), ("again", 0)]) :=
  ⟨_, _, _, rfl, rfl, rfl, rfl, rfl⟩

example : RoundTrip Memo (fun x : Fin 2 => x.val) sharedArray id 4 "x" 0 :=
  round_trip_partial _ Fin.val_injective _ (fun x => by fin_cases x <;> simp [sharedArray, Storable])
    (fun x => 1 - x.val) (fun x c hc => by
      fin_cases x <;> simp [sharedArray, Obj.members] at hc
      subst hc; simp) _ (fun l => List.Perm.refl l) _ _ _ (by simp)

/-- An instance that contains itself. -/
def selfInstance : Fin 1 → Obj (Fin 1) Nat := fun _ => .inst "A" [("self", 0)]

/-- C55 is false: an instance that contains itself is saved, and the file cannot be loaded with any
recursion limit. -/
theorem cycles_refuted : ∀ limit, 2 ≤ limit → ∃ file,
    save (fun x : Fin 1 => x.val) selfInstance limit "x" 0 [] = .ok file ∧
    ∀ limit', load id limit' file [] [] = .error .recursionError := by
  intro limit hl
  obtain ⟨n, rfl⟩ : ∃ n, limit = n + 2 := ⟨limit - 2, by omega⟩
  refine ⟨[(["x", "self"], .ref ["x"]), (["x"], .group (.inst "A") ["self"])], ?_, ?_⟩
  · simp [save, writeReserved, write, writeAll, WState.put, WState.register, selfInstance, List.lookup]
  · intro limit'
    have key : ∀ n (s : RState Nat), s.deser = [] →
        read id [(["x", "self"], Entry.ref ["x"]), (["x"], .group (.inst "A") ["self"])] n ["x"] s
          = .error .recursionError := by
      intro n
      induction n using Nat.strong_induction_on with
      | _ n ih =>
        intro s hs
        rcases n with _ | _ | n
        · rfl
        · simp [read, readAll, hs, List.lookup]
        · have := ih n (by omega) s hs
          simp [read, readAll, hs, List.lookup, this]
    simp [load, readReserved, rootKeys, readAll, key]

/-- An instance with a list that contains the instance. -/
def listInstance : Fin 2 → Obj (Fin 2) Nat
  | 0 => .inst "A" [("list", 1)]
  | 1 => .list [0]

/-- C55, second witness: this cycle is loaded, but the list contains another instance than the loaded
one. -/
theorem cyclic_copy_refuted : ∃ file after,
    save (fun x : Fin 2 => x.val) listInstance 100 "x" 0 [] = .ok file ∧
    load id 100 file [] [] = .ok ([("x", 2)], after) ∧
    after = [.list [1], .inst "A" [("list", 0)], .inst "A" [("list", 0)]] ∧
    ¬ RoundTrip Memo (fun x : Fin 2 => x.val) listInstance id 100 "x" 0 := by
  refine ⟨_, _, rfl, rfl, rfl, ?_⟩
  rintro ⟨file, r, after, R, h1, h2, h3, h4, h5⟩
  have hf : file = [(["x", "list", "0"], .ref ["x"]), (["x", "list"], .group .list ["0"]),
      (["x"], .group (.inst "A") ["list"])] := by
    have : save (fun x : Fin 2 => x.val) listInstance 100 "x" 0 [] =
      .ok [(["x", "list", "0"], .ref ["x"]), (["x", "list"], .group .list ["0"]),
      (["x"], .group (.inst "A") ["list"])] := rfl
    rw [this] at h1
    exact (Except.ok.inj h1).symm
  subst hf
  have hl : load (α := Nat) id 100 [(["x", "list", "0"], .ref ["x"]), (["x", "list"], .group .list ["0"]),
      (["x"], .group (.inst "A") ["list"])] [] [] =
      .ok ([("x", 2)], [Obj.list [1], .inst "A" [("list", 0)], .inst "A" [("list", 0)]]) := rfl
  rw [hl] at h2
  simp at h2
  obtain ⟨rfl, rfl⟩ := h2
  obtain ⟨-, o, ho, hs⟩ := h4.same 0 2 h3 id
  simp at ho
  subst ho
  simp only [listInstance] at hs
  cases hs with
  | inst hi =>
    obtain ⟨r, hr, hR⟩ := hi.values "list" 1 (by simp)
    simp at hr
    subst hr
    obtain ⟨-, o, ho, hs⟩ := h4.same 1 0 hR id
    simp at ho
    subst ho
    simp only [listInstance] at hs
    cases hs with
    | list hl =>
      cases hl with
      | cons ha _ => exact absurd (h5 0 2 1 h3 ha trivial) (by simp)

/-- Dicts, lists and tuples. -/
def IsContainer : Obj ν α → Prop
  | .dict _ => True
  | .list _ => True
  | .tuple _ => True
  | _ => False

/-- Nodes of `C` are never written. -/
theorem write_cycle {addr : ν → Nat} (haddr : Function.Injective addr) {heap : ν → Obj ν α} {C : ν → Prop}
    (hcont : ∀ x, C x → IsContainer (heap x)) (hcyc : ∀ x, C x → ∃ c, c ∈ (heap x).members ∧ C c) (n : Nat) :
    ∀ p x s, (∀ y, C y → s.ser.lookup (addr y) = none) →
      (C x → ∃ e, write addr heap n p x s = .error e) ∧
      ∀ s', write addr heap n p x s = .ok s' → ∀ y, C y → s'.ser.lookup (addr y) = none := by
  induction n with
  | zero => exact fun p x s _ => ⟨fun _ => ⟨_, rfl⟩, fun s' h => by cases h⟩
  | succ n ih =>
    have hall : ∀ p items s, (∀ y, C y → s.ser.lookup (addr y) = none) →
        ((∃ k c, (k, c) ∈ items ∧ C c) → ∃ e, writeAll (write addr heap n) p items s = .error e) ∧
        ∀ s', writeAll (write addr heap n) p items s = .ok s' → ∀ y, C y → s'.ser.lookup (addr y) = none := by
      intro p items
      induction items with
      | nil => exact fun s hs => ⟨fun ⟨_, _, h, _⟩ => by simp at h, fun s' h => by cases h; exact hs⟩
      | cons kc items ih' =>
        intro s hs
        obtain ⟨k, c⟩ := kc
        have h1 := ih (p ++ [k]) c s hs
        unfold writeAll
        cases hw : write addr heap n (p ++ [k]) c s with
        | error e => exact ⟨fun _ => ⟨e, rfl⟩, fun s' h => by cases h⟩
        | ok s₁ =>
          have h2 := ih' s₁ (h1.2 s₁ hw)
          refine ⟨?_, h2.2⟩
          rintro ⟨k', c', hm, hc⟩
          rcases List.mem_cons.1 hm with h | h
          · cases h
            obtain ⟨e, he⟩ := h1.1 hc
            rw [hw] at he
            cases he
          · exact h2.1 ⟨k', c', h, hc⟩
    have hput : ∀ {p e} {s s' : WState α}, s.put p e = .ok s' → s'.ser = s.ser := by
      intro p e s s' h
      unfold WState.put at h
      split at h
      · cases h
      · cases h; rfl
    have hreg : ∀ {x : ν} {p} {s : WState α}, ¬ C x → (∀ y, C y → s.ser.lookup (addr y) = none) →
        ∀ y, C y → (s.register (addr x) p).ser.lookup (addr y) = none := by
      intro x p s hx hs y hy
      rw [register_lookup, if_neg]
      · exact hs y hy
      · intro h
        rw [haddr h] at hy
        exact hx hy
    intro p x s hs
    constructor
    · intro hx
      obtain ⟨c, hc, hCc⟩ := hcyc x hx
      rw [← children_members] at hc
      obtain ⟨⟨k, c'⟩, hm, rfl⟩ := List.mem_map.1 hc
      have hcx := hcont x hx
      unfold write
      simp only [hs x hx]
      cases ho : heap x <;> rw [ho] at hcx hm
      all_goals first
        | exact absurd hcx id
        | (simp only
           split
           · exact ⟨_, rfl⟩
           · rename_i s₁ h1
             obtain ⟨e, he⟩ := (hall p _ s₁ (by rw [hput h1]; exact hs)).1 ⟨k, c', hm, hCc⟩
             simp only [Obj.children] at he
             rw [he]
             exact ⟨e, rfl⟩)
    · intro s' h
      by_cases hx : C x
      · exfalso
        obtain ⟨c, hc, hCc⟩ := hcyc x hx
        rw [← children_members] at hc
        obtain ⟨⟨k, c'⟩, hm, rfl⟩ := List.mem_map.1 hc
        have hcx := hcont x hx
        unfold write at h
        simp only [hs x hx] at h
        cases ho : heap x <;> rw [ho] at hcx hm h
        all_goals first
          | exact absurd hcx id
          | (simp only at h
             split at h
             · cases h
             · rename_i s₁ h1
               obtain ⟨e, he⟩ := (hall p _ s₁ (by rw [hput h1]; exact hs)).1 ⟨k, c', hm, hCc⟩
               simp only [Obj.children] at he
               rw [he] at h
               cases h)
      · unfold write at h
        split at h
        · rw [hput h]; exact hs
        · split at h
          all_goals first
            | (rw [hput h]; exact hs)
            | (cases h; done)
            | skip
          all_goals
            split at h
            · cases h
            · rename_i s₁ h1
              have hs₁ : ∀ y, C y → s₁.ser.lookup (addr y) = none := by rw [hput h1]; exact hs
              first
                | exact (hall p _ _ (hreg hx hs₁)).2 _ h
                | (cases h; exact hreg hx hs₁)
                | (split at h
                   · cases h
                   · rename_i s₂ h2
                     cases h
                     exact hreg hx ((hall p _ _ hs₁).2 s₂ h2))

end Qtune.Storage
