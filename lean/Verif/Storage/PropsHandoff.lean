import Verif.Storage.Handoff
import Verif.Storage.Props

/-! # Files that are written in the background refer to the reserved objects -/

namespace Qtune.Storage

variable {ν α : Type}

/-- What a user expects of the file of a call `write(x, …, name)` when it is loaded: it is loaded, for a reserved
object the given object of the same name is used wherever it occurs, and every other object is a new object
with the same structure and contents; containers, instances and labelled data are shared as before. -/
def RefersToReserved (heap : ν → Obj ν α) (reserved : List (String × ν)) (name : String) (x : ν)
    (written : Except PyErr (List (Path × Entry α))) (order : List String → List String) (limit : Nat)
    (before : List (Obj Nat α)) (given : List (String × Nat)) : Prop :=
  ∃ file items after R, written = .ok file ∧ load order limit file before given = .ok (items, after) ∧
    (items.map Prod.fst).Perm (name :: reserved.map Prod.fst) ∧ (∀ r, (name, r) ∈ items → R x r) ∧
    IsCopy heap before after (fun y r => ∃ k, (k, y) ∈ reserved ∧ given.lookup k = some r)
      (fun y => ∃ k, (k, y) ∈ reserved) R ∧
    SharingKept heap (fun y r => R y r ∧ ¬ ∃ k, (k, y) ∈ reserved) Memo

/-- **C129**, thread mode: for every acyclic graph of objects in which all experiments are reserved, although the
experiments have become integers on the way. -/
theorem background_file_thread_partial (isExp : ν → Bool) (ident : ν → α) (addr : ν → Nat)
    (haddr : Function.Injective addr) (heap : ν → Obj ν α) (reserved : List (String × ν))
    (hkeys : (reserved.map Prod.fst).Nodup) (hexp : ∀ x, isExp x = true → ∃ k, (k, x) ∈ reserved)
    (hst : ∀ x, (∀ k, (k, x) ∉ reserved) → Storable (heap x)) (rank : ν → Nat)
    (hacyclic : ∀ x, (∀ k, (k, x) ∉ reserved) → ∀ c, c ∈ (heap x).members → rank c < rank x)
    (order : List String → List String) (horder : ∀ l, (order l).Perm l)
    (name : String) (hname : name ∉ reserved.map Prod.fst) (x : ν)
    (limit : Nat) (hlimit : 2 * rank x + 2 ≤ limit)
    (before : List (Obj Nat α)) (given : List (String × Nat))
    (hgiven : ∀ k, k ∈ reserved.map Prod.fst → ∃ r, given.lookup k = some r ∧ r < before.length) :
    RefersToReserved heap reserved name x (writeThread isExp ident addr heap limit name x reserved) order limit before
      given := by
  have hcopy : ∀ y, (∀ k, (k, y) ∉ reserved) → deepcopied isExp ident heap y = heap y := by
    intro y hy
    refine if_neg fun h => ?_
    obtain ⟨k, hk⟩ := hexp y h
    exact hy k hk
  obtain ⟨file, items, after, R, h1, h2, h3, h4, h5, h6⟩ := reserved_replaced addr haddr
    (deepcopied isExp ident heap) reserved hkeys (fun y hy => by rw [hcopy y hy]; exact hst y hy) rank
    (fun y hy => by rw [hcopy y hy]; exact hacyclic y hy) order horder name hname x limit hlimit before given hgiven
  refine ⟨file, items, after, R, h1, h2, h3, h4, ⟨h5.unchanged, fun y r hr hy => ?_, h5.reserved, h5.injective⟩, ?_⟩
  · obtain ⟨h7, o, ho, hs⟩ := h5.same y r hr hy
    rw [hcopy y fun k hk => hy ⟨k, hk⟩] at hs
    exact ⟨h7, o, ho, hs⟩
  · intro y r r' hr hr' hm
    refine h6 y r r' hr hr' ?_
    rw [hcopy y fun k hk => hr.2 ⟨k, hk⟩]
    exact hm

/-- The node that a place holds. -/
def Loc.node : Loc ν → ν
  | .obj x => x
  | .num x _ => x

theorem node_locate (heap : ν → Obj ν α) (p : Place ν) (x : ν) : (locate heap p x).node = x := by
  unfold locate
  split <;> rfl

/-- Members of unpickled objects stand for the members. -/
theorem same_pickled {heap : ν → Obj ν α} {R : Loc ν → Nat → Prop} {x : ν} {l : Loc ν} (hl : l.node = x)
    (hnum : ∀ p, l = .num x p → ∃ a, heap x = .scalar a) {o : Obj Nat α} (h : Same R (pickled heap l) o) :
    Same (fun y r => ∃ l : Loc ν, l.node = y ∧ R l r ∧
      ∀ p, l = .num y p → ∃ a, heap y = .scalar a) (heap x) o := by
  have hloc : ∀ (p : Place ν) (y : ν) (r : Nat), R (locate heap p y) r → ∃ l : Loc ν, l.node = y ∧ R l r ∧
      ∀ p, l = .num y p → ∃ a, heap y = .scalar a := by
    intro p y r hr
    refine ⟨_, node_locate heap p y, hr, fun p' hp' => ?_⟩
    unfold locate at hp'
    split at hp'
    · exact ⟨_, by assumption⟩
    · cases hp'
  have hitems : ∀ (items : List (String × ν)) items', SameItems R (items.map fun c =>
      (c.1, locate heap (.member x c.1) c.2)) items' → SameItems (fun y r => ∃ l : Loc ν, l.node = y ∧ R l r ∧
      ∀ p, l = .num y p → ∃ a, heap y = .scalar a) items items' := by
    intro items items' hs
    refine ⟨?_, fun k c hc => ?_⟩
    · have := hs.keys
      rwa [List.map_map] at this
    · obtain ⟨r, hr, hR⟩ := hs.values k (locate heap (.member x k) c) (List.mem_map.2 ⟨(k, c), hc, rfl⟩)
      exact ⟨r, hr, hloc _ _ _ hR⟩
  have hlist : ∀ (items : List ν) (j : Nat) items', List.Forall₂ R ((items.zipIdx j).map fun c =>
      locate heap (.member x (toString c.2)) c.1) items' → List.Forall₂ (fun y r => ∃ l : Loc ν, l.node = y ∧ R l r ∧
      ∀ p, l = .num y p → ∃ a, heap y = .scalar a) items items' := by
    intro items
    induction items with
    | nil => intro j items' hs; cases hs; exact .nil
    | cons y items ih =>
      intro j items' hs
      rw [List.zipIdx_cons, List.map_cons] at hs
      cases hs with
      | cons h1 h2 => exact .cons (hloc _ _ _ h1) (ih (j + 1) _ h2)
  cases l with
  | num y p =>
    have hl' : y = x := hl
    subst hl'
    obtain ⟨a, ha⟩ := hnum p rfl
    unfold pickled at h
    simp only [ha] at h ⊢
    cases h
    exact .scalar a
  | obj y =>
    have hl' : y = x := hl
    subst hl'
    unfold pickled at h
    cases hy : heap y with
    | array a => simp only [hy] at h; cases h; exact .array a
    | labelled a => simp only [hy] at h; cases h; exact .labelled a
    | scalar a => simp only [hy] at h; cases h; exact .scalar a
    | none => simp only [hy] at h; cases h; exact .none
    | dict items => simp only [hy] at h; cases h with | dict h => exact .dict (hitems _ _ h)
    | inst cls items => simp only [hy] at h; cases h with | inst h => exact .inst (hitems _ _ h)
    | list items =>
      simp only [hy] at h
      cases h with
      | list h =>
        refine .list (hlist _ 0 _ ?_)
        simpa [enumerate, List.map_map, Function.comp_def] using h
    | tuple items =>
      simp only [hy] at h
      cases h with
      | tuple h =>
        refine .tuple (hlist _ 0 _ ?_)
        simpa [enumerate, List.map_map, Function.comp_def] using h
    | other => simp only [hy] at h; cases h

theorem members_pickled (heap : ν → Obj ν α) (l c : Loc ν) (hc : c ∈ (pickled heap l).members) :
    c.node ∈ (heap l.node).members ∧ ∃ p, c = locate heap p c.node := by
  have hitems : ∀ (x : ν) (items : List (String × ν)), c ∈ (items.map fun c =>
      (c.1, locate heap (.member x c.1) c.2)).map Prod.snd → c.node ∈ items.map Prod.snd ∧
      ∃ p, c = locate heap p c.node := by
    intro x items hc
    simp only [List.map_map, List.mem_map, Function.comp] at hc
    obtain ⟨a, ha, rfl⟩ := hc
    rw [node_locate]
    exact ⟨List.mem_map.2 ⟨a, ha, rfl⟩, _, rfl⟩
  have hlist : ∀ (x : ν) (items : List ν), c ∈ (enumerate items).map (fun c => locate heap (.member x c.1) c.2) →
      c.node ∈ items ∧ ∃ p, c = locate heap p c.node := by
    intro x items hc
    obtain ⟨a, ha, rfl⟩ := List.mem_map.1 hc
    rw [node_locate]
    refine ⟨?_, _, rfl⟩
    simp only [enumerate, List.mem_map] at ha
    obtain ⟨b, hb, rfl⟩ := ha
    obtain ⟨y, i⟩ := b
    exact (List.mem_zipIdx hb).2.2 ▸ List.getElem_mem _
  cases l with
  | num x p =>
    unfold pickled at hc
    simp only at hc
    split at hc <;> simp [Obj.members] at hc
  | obj x =>
    unfold pickled at hc
    simp only [Loc.node]
    cases hx : heap x <;> simp only [hx, Obj.members, List.not_mem_nil] at hc ⊢
    · exact hitems _ _ hc
    · exact hlist _ _ hc
    · exact hlist _ _ hc
    · exact hitems _ _ hc

/-- What worked of C129 in process mode: if no reserved object is an experiment or a number, and there are no other
experiments, the file refers to the reserved objects. -/
theorem background_file_process_partial (isExp : ν → Bool) (ident : ν → α) (addr : Loc ν → Nat)
    (haddr : Function.Injective addr) (heap : ν → Obj ν α) (reserved : List (String × ν))
    (hkeys : (reserved.map Prod.fst).Nodup) (hexp : ∀ x, isExp x = false)
    (hres : ∀ k x, (k, x) ∈ reserved → ∀ a, heap x ≠ .scalar a)
    (hst : ∀ x, (∀ k, (k, x) ∉ reserved) → Storable (heap x)) (rank : ν → Nat)
    (hacyclic : ∀ x, (∀ k, (k, x) ∉ reserved) → ∀ c, c ∈ (heap x).members → rank c < rank x)
    (order : List String → List String) (horder : ∀ l, (order l).Perm l)
    (name : String) (hname : name ∉ reserved.map Prod.fst) (x : ν)
    (limit : Nat) (hlimit : 2 * rank x + 2 ≤ limit)
    (before : List (Obj Nat α)) (given : List (String × Nat))
    (hgiven : ∀ k, k ∈ reserved.map Prod.fst → ∃ r, given.lookup k = some r ∧ r < before.length) :
    RefersToReserved heap reserved name x (writeProcess isExp ident addr heap limit name x reserved) order limit before
      given := by
  have hcopy : deepcopied isExp ident heap = heap := by
    funext y
    exact if_neg (by rw [hexp y]; simp)
  have hobj : ∀ y, (∀ a, heap y ≠ .scalar a) → ∀ p, locate heap p y = .obj y := by
    intro y hy p
    unfold locate
    split
    · exact absurd (by assumption) (hy _)
    · rfl
  have hmem : ∀ k (l : Loc ν), (k, l) ∈ reserved.map (fun c => (c.1, Loc.obj c.2)) ↔
      ∃ y, (k, y) ∈ reserved ∧ l = .obj y := by
    intro k l
    simp only [List.mem_map, Prod.mk.injEq]
    constructor
    · rintro ⟨⟨k', y⟩, hc, rfl, rfl⟩
      exact ⟨y, hc, rfl⟩
    · rintro ⟨y, hc, rfl⟩
      exact ⟨(k, y), hc, rfl, rfl⟩
  have hnot : ∀ y, (∀ k, (k, Loc.obj y) ∉ reserved.map (fun c => (c.1, Loc.obj c.2))) → ∀ k, (k, y) ∉ reserved :=
    fun y hy k hk => hy k ((hmem _ _).2 ⟨y, hk, rfl⟩)
  obtain ⟨file, items, after, R, h1, h2, h3, h4, h5, h6⟩ := reserved_replaced addr haddr
    (pickled heap) (reserved.map fun c => (c.1, Loc.obj c.2)) (by rw [List.map_map]; exact hkeys) (by
      intro l hl
      cases l with
      | num y p => unfold pickled; simp only; split <;> simp [Storable]
      | obj y =>
        have := hst y (hnot y hl)
        unfold pickled
        simp only
        cases hy : heap y <;> simp only [hy, Storable, List.map_map] at this ⊢ <;> exact this)
    (fun l => rank l.node) (by
      intro l hl c hc
      have hm := (members_pickled heap l c hc).1
      cases l with
      | num y p =>
        unfold pickled at hc
        simp only at hc
        split at hc <;> simp [Obj.members] at hc
      | obj y => exact hacyclic y (hnot y hl) _ hm)
    order horder name (by rw [List.map_map]; exact hname) (locate heap .root x) limit
    (by rw [node_locate]; exact hlimit) before given (by rw [List.map_map]; exact hgiven)
  have hwritten : writeProcess isExp ident addr heap limit name x reserved = .ok file := by
    unfold writeProcess
    simp only [hcopy]
    rw [← h1, List.map_map]
    congr 1
    refine List.map_congr_left fun c hc => ?_
    simp only [Function.comp]
    rw [hobj c.2 (hres c.1 c.2 hc)]
  have hloc : ∀ {l : Loc ν} {y : ν}, l.node = y → (∀ p, l = .num y p → ∃ a, heap y = .scalar a) →
      (∀ a, heap y ≠ .scalar a) → l = .obj y := by
    intro l y hl hn hy
    cases l with
    | obj z => exact congrArg Loc.obj hl
    | num z p =>
      have hz : z = y := hl
      subst hz
      obtain ⟨a, ha⟩ := hn p rfl
      exact absurd ha (hy a)
  have hout : ∀ {l : Loc ν} {y : ν}, l.node = y → (¬ ∃ k, (k, y) ∈ reserved) →
      ¬ ∃ k, (k, l) ∈ reserved.map (fun c => (c.1, Loc.obj c.2)) := by
    rintro l y hl hy ⟨k, hk⟩
    obtain ⟨z, hz, rfl⟩ := (hmem _ _).1 hk
    exact hy ⟨k, hl ▸ hz⟩
  refine ⟨file, items, after, fun y r => ∃ l : Loc ν, l.node = y ∧ R l r ∧
    ∀ p, l = .num y p → ∃ a, heap y = .scalar a, hwritten, h2, ?_, ?_, ⟨h5.unchanged, ?_, ?_, ?_⟩, ?_⟩
  · rw [List.map_map] at h3
    exact h3
  · intro r hr
    refine ⟨_, node_locate heap .root x, h4 r hr, fun p hp => ?_⟩
    unfold locate at hp
    split at hp
    · exact ⟨_, by assumption⟩
    · cases hp
  · rintro y r ⟨l, hl, hR, hn⟩ hy
    obtain ⟨h7, o, ho, hs⟩ := h5.same l r hR (hout hl hy)
    exact ⟨h7, o, ho, same_pickled hl hn hs⟩
  · rintro y r ⟨l, hl, hR, hn⟩ ⟨k, hk⟩
    have hlo := hloc hl hn (hres k y hk)
    subst hlo
    obtain ⟨k', hk', hg⟩ := h5.reserved _ r hR ⟨k, (hmem _ _).2 ⟨y, hk, rfl⟩⟩
    obtain ⟨z, hz, he⟩ := (hmem _ _).1 hk'
    cases he
    exact ⟨k', hz, hg⟩
  · rintro y z r hy hz ⟨l, hl, hR, -⟩ ⟨l', hl', hR', -⟩
    have := h5.injective l l' r (hout hl hy) (hout hl' hz) hR hR'
    rw [← hl, ← hl', this]
  · rintro y r r' ⟨⟨l, hl, hR, hn⟩, hy⟩ ⟨⟨l', hl', hR', hn'⟩, -⟩ hm
    have hy' : ∀ a, heap y ≠ .scalar a := by
      intro a ha
      rw [ha] at hm
      exact hm
    have h7 := hloc hl hn hy'
    have h8 := hloc hl' hn' hy'
    subst h7 h8
    refine h6 _ r r' ⟨hR, hout rfl hy⟩ ⟨hR', hout rfl hy⟩ ?_
    unfold pickled
    simp only
    cases hh : heap y <;> rw [hh] at hm <;> simp only [Memo] at hm ⊢

/-! ### The refutation -/

/-- The smallest case: an instance that holds the experiment, as an `Autotuner` does. -/
def holder (cls key : String) : Bool → Obj Bool Nat
  | false => .inst cls [(key, true)]
  | true => .other

/-- **C129** is false in process mode, the default of `AsynchronousHDF5Writer`: the experiment, which has become an
integer, is not recognised as reserved in the other process.  For all names, integers, addresses, recursion limits
of at least 3 and given experiments: the file is written and loaded without an exception, but where the experiment
was there is a new number, not the given experiment. -/
theorem background_file_process_refuted (cls key resKey name : String) (hname : name ≠ resKey) (ident : Bool → Nat)
    (addr : Loc Bool → Nat) (haddr : Function.Injective addr) (limit : Nat) (hlimit : 3 ≤ limit)
    (before : List (Obj Nat Nat)) (r : Nat) :
    (∃ file, writeProcess id ident addr (holder cls key) limit name false [(resKey, true)] = .ok file ∧
      ∃ items after c, load id limit file before [(resKey, r)] = .ok (items, after) ∧
        (name, before.length + 1) ∈ items ∧ after[before.length + 1]? = some (.inst cls [(key, c)]) ∧
        after[c]? = some (.scalar (ident true)) ∧ before.length ≤ c) ∧
    (r < before.length → ¬ RefersToReserved (holder cls key) [(resKey, true)] name false
      (writeProcess id ident addr (holder cls key) limit name false [(resKey, true)]) id limit before [(resKey, r)]) := by
  obtain ⟨n, rfl⟩ : ∃ n, limit = n + 3 := ⟨limit - 3, by omega⟩
  have ha1 : addr (.obj false) ≠ addr (.num true (.reserved resKey)) := fun h => by cases haddr h
  have ha2 : addr (.num true (.member false key)) ≠ addr (.num true (.reserved resKey)) := fun h => by
    cases haddr h
  have ha3 : addr (.num true (.member false key)) ≠ addr (.obj false) := fun h => by cases haddr h
  have hfile : writeProcess id ident addr (holder cls key) (n + 3) name false [(resKey, true)] =
      .ok [([name, key], .scalar (ident true)), ([name], .group (.inst cls) [key]), ([resKey], .reserved)] := by
    simp [writeProcess, save, writeReserved, WState.put, WState.register, write, writeAll, locate, deepcopied, holder,
      pickled, List.lookup, beq_eq_false_iff_ne.2 ha1, beq_eq_false_iff_ne.2 ha2, beq_eq_false_iff_ne.2 ha3,
      beq_eq_false_iff_ne.2 hname]
  have hload : load id (n + 3) [([name, key], .scalar (ident true)), ([name], .group (.inst cls) [key]),
      ([resKey], .reserved)] before [(resKey, r)] =
      .ok ([(name, before.length + 1), (resKey, r)], before ++ [.scalar (ident true)] ++
        [.inst cls [(key, before.length)]]) := by
    simp [load, readReserved, readAll, read, rootKeys, RState.register, RState.alloc, List.lookup,
      beq_eq_false_iff_ne.2 hname, beq_eq_false_iff_ne.2 hname.symm]
  have hat : (before ++ [.scalar (ident true)] ++ [.inst cls [(key, before.length)]])[before.length]? =
      some (.scalar (ident true)) := by simp
  have hat1 : (before ++ [.scalar (ident true)] ++ [.inst cls [(key, before.length)]])[before.length + 1]? =
      some (.inst cls [(key, before.length)]) := by
    rw [List.getElem?_append_right (by simp)]
    simp
  refine ⟨⟨_, hfile, _, _, before.length, hload, by simp, hat1, hat, le_refl _⟩, ?_⟩
  rintro hr ⟨file, items, after, R, h1, h2, h3, h4, h5, h6⟩
  rw [hfile] at h1
  cases h1
  rw [hload] at h2
  cases h2
  obtain ⟨-, o, ho, hs⟩ := h5.same false (before.length + 1) (h4 _ (by simp)) (by simp)
  rw [hat1] at ho
  cases ho
  cases hs with
  | inst hi =>
    obtain ⟨c, hc, hR⟩ := hi.values key true (by simp)
    simp only [List.mem_singleton, Prod.mk.injEq, true_and] at hc
    obtain ⟨k, hk, hg⟩ := h5.reserved true c hR ⟨resKey, by simp⟩
    simp only [List.mem_singleton, Prod.mk.injEq, and_true] at hk
    subst hk
    simp [List.lookup] at hg
    omega

/-- The same object is fine in thread mode, which is what `Autotuner` uses; the hypotheses of
`background_file_thread_partial` are met. -/
example : RefersToReserved (holder "Autotuner" "experiment") [("experiment", true)] "x" false
    (writeThread id (fun _ => 140234) (fun b => if b then 1 else 0) (holder "Autotuner" "experiment") 4 "x" false
      [("experiment", true)]) id 4 [.array 7] [("experiment", 0)] :=
  background_file_thread_partial id _ _ (fun a b => by cases a <;> cases b <;> simp) _ _ (by simp)
    (fun x hx => ⟨"experiment", by cases x; cases hx; simp⟩)
    (fun x hx => by cases x; simp [holder, Storable]; exact absurd (List.mem_singleton.2 rfl) (hx _))
    (fun b => if b then 0 else 1)
    (fun x hx c hc => by
      cases x
      · simp [holder, Obj.members] at hc; subst hc; simp
      · exact absurd (List.mem_singleton.2 rfl) (hx _))
    id (fun _ => .refl _) _ (by decide) _ _ (by simp) _ _ (fun k hk => ⟨0, by
      simp only [List.map_cons, List.map_nil, List.mem_singleton] at hk
      subst hk
      simp [List.lookup], by simp⟩)

/-- And in process mode for a reserved object that is not an experiment. -/
example (addr : Loc Bool → Nat) (haddr : Function.Injective addr) :
    RefersToReserved (holder "Autotuner" "writer") [("writer", true)] "x" false
    (writeProcess (fun _ => false) (fun _ => 0) addr (holder "Autotuner" "writer") 4 "x" false
      [("writer", true)]) id 4 [.array 7] [("writer", 0)] :=
  background_file_process_partial _ _ _ haddr _ _ (by simp) (fun _ => rfl)
    (fun k x hk => by
      simp only [List.mem_singleton, Prod.mk.injEq] at hk
      rw [hk.2]
      simp [holder])
    (fun x hx => by cases x; simp [holder, Storable]; exact absurd (List.mem_singleton.2 rfl) (hx _))
    (fun b => if b then 0 else 1)
    (fun x hx c hc => by
      cases x
      · simp [holder, Obj.members] at hc; subst hc; simp
      · exact absurd (List.mem_singleton.2 rfl) (hx _))
    id (fun _ => .refl _) _ (by decide) _ _ (by simp) _ _ (fun k hk => ⟨0, by
      simp only [List.map_cons, List.map_nil, List.mem_singleton] at hk
      subst hk
      simp [List.lookup], by simp⟩)

end Qtune.Storage
