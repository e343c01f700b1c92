import Verif.Storage.Model

/-!
# How an object gets to the worker of the `AsynchronousHDF5Writer` (storage.py:319-369)

`write` makes a deep copy of the object together with the reserved objects and puts both into a queue.  In thread
mode the worker takes the copy itself; in process mode the queue pickles it and the worker gets what
is unpickled.
-/

namespace Qtune.Storage

/-- The objects after `copy.deepcopy((obj, self.reserved))` (storage.py:367).  An experiment is replaced by
`id(self)`, an integer (`Experiment.__deepcopy__`, experiment.py:90-91): `ident x` is this integer; since `deepcopy`
remembers what it has made for an object, there is only one integer object for each experiment.  Everything
else is copied member by member, so that the copies form the same graph; the copy of `x` is called `x` again.
Simplification: no class but `Experiment` has an own `__deepcopy__`. -/
def deepcopied {ν α : Type} (isExp : ν → Bool) (ident : ν → α) (heap : ν → Obj ν α) (x : ν) : Obj ν α :=
  if isExp x then .scalar (ident x) else heap x

/-- A place at which an object occurs: as the object to write, in the dict of reserved objects, or as a member of
another object.  The elements of the tuple in storage.py:369. -/
inductive Place (ν : Type)
  | root
  | reserved (key : String)
  | member (of : ν) (key : String)

/-- Objects after unpickling (`multiprocessing.JoinableQueue`, storage.py:325, 369).  `obj x`: the object made for `x`,
one for all places; `num x p`: the number made for the number `x` at the place `p`. -/
inductive Loc (ν : Type)
  | obj (x : ν)
  | num (x : ν) (p : Place ν)

/-- What is unpickled for the object `x` at the place `p`: `pickle` remembers the objects that it has written, but
not numbers, which are written and created anew at every place.  storage.py:369.  Simplification: `np.generic`
and `complex`, which are remembered, are treated like `float`, `int` and `bool`. -/
def locate {ν α : Type} (heap : ν → Obj ν α) (p : Place ν) (x : ν) : Loc ν :=
  match heap x with
  | .scalar _ => .num x p
  | _ => .obj x

/-- The objects after pickling and unpickling.  storage.py:369.  (`num x p` occurs for numbers `x` only.) -/
def pickled {ν α : Type} (heap : ν → Obj ν α) : Loc ν → Obj (Loc ν) α
  | .num x _ =>
    match heap x with
    | .scalar a => .scalar a
    | _ => .none
  | .obj x =>
    match heap x with
    | .array a => .array a
    | .labelled a => .labelled a
    | .scalar a => .scalar a
    | .none => .none
    | .dict items => .dict (items.map fun c => (c.1, locate heap (.member x c.1) c.2))
    | .list items => .list ((enumerate items).map fun c => locate heap (.member x c.1) c.2)
    | .tuple items => .tuple ((enumerate items).map fun c => locate heap (.member x c.1) c.2)
    | .inst cls kwargs => .inst cls (kwargs.map fun c => (c.1, locate heap (.member x c.1) c.2))
    | .other => .other

/-- `write` and the worker in thread mode (`multiprocess=False`, as in `Autotuner`; storage.py:327-329, 360-369,
307).  `addr` is the function `id` for the copies. -/
def writeThread {ν α : Type} (isExp : ν → Bool) (ident : ν → α) (addr : ν → Nat) (heap : ν → Obj ν α) (limit : Nat)
    (name : String) (x : ν) (reserved : List (String × ν)) : Except PyErr (List (Path × Entry α)) :=
  save addr (deepcopied isExp ident heap) limit name x (reserved.map fun c => (c.1, addr c.2))

/-- `write` and the worker in process mode (`multiprocess=True`, the default; storage.py:324-326, 360-369, 307).
`addr` is the function `id` in the process of the worker. -/
def writeProcess {ν α : Type} (isExp : ν → Bool) (ident : ν → α) (addr : Loc ν → Nat) (heap : ν → Obj ν α)
    (limit : Nat) (name : String) (x : ν) (reserved : List (String × ν)) : Except PyErr (List (Path × Entry α)) :=
  let copy := deepcopied isExp ident heap
  save addr (pickled copy) limit name (locate copy .root x)
    (reserved.map fun c => (c.1, addr (locate copy (.reserved c.1) c.2)))

end Qtune.Storage
