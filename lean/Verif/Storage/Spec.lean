import Verif.Storage.Model
import Mathlib.Data.List.Forall2

/-! # When the loaded objects are a copy of the saved ones -/

namespace Qtune.Storage

variable {ν α : Type}

/-- Two dicts have the same keys, in any order, and related values. -/
structure SameItems (R : ν → Nat → Prop) (items : List (String × ν)) (items' : List (String × Nat)) :
    Prop where
  keys : (items'.map Prod.fst).Perm (items.map Prod.fst)
  values : ∀ k c, (k, c) ∈ items → ∃ r, (k, r) ∈ items' ∧ R c r

/-- Two objects are of the same kind with the same contents and related members. -/
inductive Same (R : ν → Nat → Prop) : Obj ν α → Obj Nat α → Prop
  | array (a : α) : Same R (.array a) (.array a)
  | labelled (a : α) : Same R (.labelled a) (.labelled a)
  | scalar (a : α) : Same R (.scalar a) (.scalar a)
  | none : Same R .none .none
  | dict {items items'} (h : SameItems R items items') : Same R (.dict items) (.dict items')
  | list {items items'} (h : List.Forall₂ R items items') : Same R (.list items) (.list items')
  | tuple {items items'} (h : List.Forall₂ R items items') : Same R (.tuple items) (.tuple items')
  | inst {cls items items'} (h : SameItems R items items') : Same R (.inst cls items) (.inst cls items')

/-- Objects whose identity matters: all but numbers and `None`. -/
def HasIdentity : Obj ν α → Prop
  | .scalar _ => False
  | .none => False
  | _ => True

/-- Containers, instances, and labelled data. -/
def Memo : Obj ν α → Prop
  | .dict _ => True
  | .list _ => True
  | .tuple _ => True
  | .inst _ _ => True
  | .labelled _ => True
  | _ => False

/-- The members of an object. -/
def Obj.members : Obj ν α → List ν
  | .dict items => items.map Prod.snd
  | .list items => items
  | .tuple items => items
  | .inst _ kwargs => kwargs.map Prod.snd
  | _ => []

/-- The object can be stored: its class is known and the keys of a dict are different. -/
def Storable : Obj ν α → Prop
  | .other => False
  | .dict items => (items.map Prod.fst).Nodup
  | .inst _ kwargs => (kwargs.map Prod.fst).Nodup
  | _ => True

/-- `R` relates saved objects to the objects that were loaded for them.  `before` are the objects that
existed before loading, `after` those after loading; `isReserved` are the reserved objects and `given` the
objects given for them. -/
structure IsCopy (heap : ν → Obj ν α) (before after : List (Obj Nat α)) (given : ν → Nat → Prop)
    (isReserved : ν → Prop) (R : ν → Nat → Prop) : Prop where
  /-- Existing objects are not changed. -/
  unchanged : ∀ (r : Nat) o, before[r]? = some o → after[r]? = some o
  /-- A loaded object is new, of the same kind, with the same contents, and its members are the objects
  loaded for the members. -/
  same : ∀ x r, R x r → ¬ isReserved x → before.length ≤ r ∧ ∃ o, after[r]? = some o ∧ Same R (heap x) o
  /-- For a reserved object the given one is used. -/
  reserved : ∀ x r, R x r → isReserved x → given x r
  /-- Different objects stay different. -/
  injective : ∀ x y r, ¬ isReserved x → ¬ isReserved y → R x r → R y r → x = y

/-- The same object stays the same object. -/
def SharingKept (heap : ν → Obj ν α) (R : ν → Nat → Prop) (kept : Obj ν α → Prop) : Prop :=
  ∀ x r r', R x r → R x r' → kept (heap x) → r = r'

/-- Saving `x` and loading the file gives a copy in which objects of the kinds `kept` are shared as
before. -/
def RoundTrip (kept : Obj ν α → Prop) (addr : ν → Nat) (heap : ν → Obj ν α)
    (order : List String → List String) (limit : Nat) (name : String) (x : ν) : Prop :=
  ∃ file r after R, save addr heap limit name x [] = .ok file ∧
    load order limit file [] [] = .ok ([(name, r)], after) ∧ R x r ∧
    IsCopy heap [] after (fun _ _ => False) (fun _ => False) R ∧ SharingKept heap R kept

/-- `x` is `y` or one of its members, or a member of a member, ... -/
inductive Reach (heap : ν → Obj ν α) (x : ν) : ν → Prop
  | refl : Reach heap x x
  | step {y z} (h : Reach heap x y) (hz : z ∈ (heap y).members) : Reach heap x z

/-- Possible addresses if the object `x` with `owner x = some i` is created when the instance `i` is
stored and freed afterwards: only objects that do not exist at the same time may have the same address. -/
def ValidAddresses (heap : ν → Obj ν α) (owner : ν → Option ν) (addr : ν → Nat) : Prop :=
  ∀ x y, addr x = addr y → x = y ∨ ∃ i j, owner x = some i ∧ owner y = some j ∧
    ¬ Reach heap i j ∧ ¬ Reach heap j i

end Qtune.Storage
