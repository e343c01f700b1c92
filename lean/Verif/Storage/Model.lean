import Verif.Base

/-!
# Model of `to_hdf5` and `from_hdf5` (storage.py:74-294)

Objects in memory are nodes of a heap.  `ν` is the type of the nodes, `α` the type of the contents of
leaves.  A file maps paths to entries.
-/

namespace Qtune.Storage

/-- An object in memory, as far as storage.py distinguishes them.  `array`: `np.ndarray`; `labelled`:
`pd.DataFrame`, `pd.Series` or `str`; `scalar`: `float`, `int`, `complex`, `bool` or `np.generic`;
`inst`: an instance of a registered class with the dict that its method `to_hdf5` returns; `other`: any
other object.  Simplification: keys are strings that are legal names in an HDF5 group, so no `/`.
storage.py:87-153. -/
inductive Obj (ν α : Type)
  | array (a : α)
  | labelled (a : α)
  | scalar (a : α)
  | none
  | dict (items : List (String × ν))
  | list (items : List ν)
  | tuple (items : List ν)
  | inst (cls : String) (kwargs : List (String × ν))
  | other

/-- The position of a group or dataset in the file.  storage.py:88, 96, 104. -/
abbrev Path := List String

/-- The attribute `#type` of a group.  storage.py:89, 97, 105. -/
inductive Typ
  | dict
  | list
  | tuple
  | inst (cls : String)
  deriving DecidableEq

/-- What the file contains at a path.  `array` and `scalar` are datasets without `#type`; `ref` is a dataset
with an object reference.  Simplification: a group is created together with the names of its
members.  storage.py:83-151. -/
inductive Entry (α : Type)
  | group (typ : Typ) (keys : List String)
  | array (a : α)
  | labelled (a : α)
  | scalar (a : α)
  | none
  | ref (p : Path)
  | reserved

/-- The file and the dict `serialized` (storage.py:169) from addresses to groups and datasets. -/
structure WState (α : Type) where
  file : List (Path × Entry α)
  ser : List (Nat × Path)

/-- `create_group`, `create_dataset`: `ValueError` if the name exists.  storage.py:84-149. -/
def WState.put {α : Type} (p : Path) (e : Entry α) (s : WState α) : Except PyErr (WState α) :=
  match s.file.lookup p with
  | some _ => .error .valueError
  | none => .ok { s with file := (p, e) :: s.file }

/-- `serialized[id(obj)] = …`.  storage.py:92-150. -/
def WState.register {α : Type} (a : Nat) (p : Path) (s : WState α) : WState α :=
  { s with ser := (a, p) :: s.ser }

/-- The items of a list with the names `str(idx)` (storage.py:98-99). -/
def enumerate {ν : Type} (items : List ν) : List (String × ν) :=
  items.zipIdx.map fun c => (toString c.2, c.1)

/-- The loops over the members (storage.py:90-91, 98-99, 110-111). -/
def writeAll {ν α : Type} (write : Path → ν → WState α → Except PyErr (WState α)) (p : Path) :
    List (String × ν) → WState α → Except PyErr (WState α)
  | [], s => .ok s
  | (k, x) :: items, s =>
    match write (p ++ [k]) x s with
    | .error e => .error e
    | .ok s => writeAll write p items s

/-- `_to_hdf5` (storage.py:74-153) with the recursion limit `n`.  `addr` is the function `id`.  Dicts, lists
and tuples are registered after their members are written, instances before. -/
def write {ν α : Type} (addr : ν → Nat) (heap : ν → Obj ν α) :
    Nat → Path → ν → WState α → Except PyErr (WState α)
  | 0, _, _, _ => .error .recursionError
  | n + 1, p, x, s =>
    match s.ser.lookup (addr x) with
    | some q => s.put p (.ref q)                                                     -- lines 83-85
    | none =>
      match heap x with
      | .dict items =>                                                              -- lines 87-93
        match s.put p (.group .dict (items.map Prod.fst)) with
        | .error e => .error e
        | .ok s =>
          match writeAll (write addr heap n) p items s with
          | .error e => .error e
          | .ok s => .ok (s.register (addr x) p)
      | .list items =>                                                              -- lines 95-102
        match s.put p (.group .list ((enumerate items).map Prod.fst)) with
        | .error e => .error e
        | .ok s =>
          match writeAll (write addr heap n) p (enumerate items) s with
          | .error e => .error e
          | .ok s => .ok (s.register (addr x) p)
      | .tuple items =>                                                             -- lines 95-102
        match s.put p (.group .tuple ((enumerate items).map Prod.fst)) with
        | .error e => .error e
        | .ok s =>
          match writeAll (write addr heap n) p (enumerate items) s with
          | .error e => .error e
          | .ok s => .ok (s.register (addr x) p)
      | .inst cls kwargs =>                                                         -- lines 104-113
        match s.put p (.group (.inst cls) (kwargs.map Prod.fst)) with
        | .error e => .error e
        | .ok s => writeAll (write addr heap n) p kwargs (s.register (addr x) p)
      | .labelled a =>                                                              -- lines 115-130, 141-146
        match s.put p (.labelled a) with
        | .error e => .error e
        | .ok s => .ok (s.register (addr x) p)
      | .array a =>                                                                 -- lines 132-135
        match s.put p (.array a) with
        | .error e => .error e
        | .ok s => .ok (s.register (addr x) p)
      | .scalar a => s.put p (.scalar a)                                            -- lines 137-139
      | .none =>                                                                    -- lines 148-152
        match s.put p .none with
        | .error e => .error e
        | .ok s => .ok (s.register (addr x) p)
      | .other => .error (.runtimeError "")                                         -- line 154

/-- The loop over the reserved objects (storage.py:171-174): keys and addresses. -/
def writeReserved {α : Type} : List (String × Nat) → WState α → Except PyErr (WState α)
  | [], s => .ok s
  | (k, a) :: rest, s =>
    match s.put [k] .reserved with
    | .error e => .error e
    | .ok s => writeReserved rest (s.register a [k])

/-- `to_hdf5` into a new file (storage.py:156-176). -/
def save {ν α : Type} (addr : ν → Nat) (heap : ν → Obj ν α) (limit : Nat) (name : String) (x : ν)
    (reserved : List (String × Nat)) : Except PyErr (List (Path × Entry α)) :=
  match writeReserved reserved ⟨[], []⟩ with
  | .error e => .error e
  | .ok s =>
    match write addr heap limit [name] x s with
    | .error e => .error e
    | .ok s => .ok s.file

/-- The objects that exist while loading, by number, and the dict `deserialized` (storage.py:288). -/
structure RState (α : Type) where
  heap : List (Obj Nat α)
  deser : List (Path × Nat)

/-- A new object.  storage.py:195-254. -/
def RState.alloc {α : Type} (o : Obj Nat α) (s : RState α) : RState α := { s with heap := s.heap ++ [o] }

/-- `deserialized[hdf5_obj.id] = …`.  storage.py:195-254. -/
def RState.register {α : Type} (p : Path) (r : Nat) (s : RState α) : RState α :=
  { s with deser := (p, r) :: s.deser }

/-- An object is filled with its items.  storage.py:198-231. -/
def RState.fill {α : Type} (r : Nat) (o : Obj Nat α) (s : RState α) : RState α :=
  { s with heap := s.heap.set r o }

/-- The loops over the members (storage.py:198-199, 204-205, 224-225, 230-231). -/
def readAll {α : Type} (read : Path → RState α → Except PyErr (Nat × RState α)) (p : Path) :
    List String → RState α → Except PyErr (List (String × Nat) × RState α)
  | [], s => .ok ([], s)
  | k :: ks, s =>
    match read (p ++ [k]) s with
    | .error e => .error e
    | .ok (r, s) =>
      match readAll read p ks s with
      | .error e => .error e
      | .ok (rs, s) => .ok ((k, r) :: rs, s)

/-- The names `str(idx)` of the members of a list (storage.py:224, 230). -/
def indices (n : Nat) : List String := (List.range n).map toString

/-- `_from_hdf5` (storage.py:179-271) with the recursion limit `n`.  `order` is the order in which HDF5
enumerates the members of a group.  Instances and tuples are registered after their members are read,
dicts and lists before; arrays, scalars and `None` are not registered.  The constructor of a class keeps
its arguments (it is the inverse of `to_hdf5`); the classes themselves are treated in the other parts of
the model. -/
def read {α : Type} (order : List String → List String) (file : List (Path × Entry α)) :
    Nat → Path → RState α → Except PyErr (Nat × RState α)
  | 0, _, _ => .error .recursionError
  | n + 1, p, s =>
    match s.deser.lookup p with
    | some r => .ok (r, s)                                                          -- lines 186-187
    | none =>
      match file.lookup p with
      | none => .error .keyError
      | some (.group .dict keys) =>                                                 -- lines 190-196
        match readAll (read order file n) p (order keys)
            ((s.alloc (.dict [])).register p s.heap.length) with
        | .error e => .error e
        | .ok (items, s') => .ok (s.heap.length, s'.fill s.heap.length (.dict items))
      | some (.group (.inst cls) keys) =>                                           -- lines 198-214
        match readAll (read order file n) p (order keys) s with
        | .error e => .error e
        | .ok (kwargs, s') =>
          .ok (s'.heap.length, (s'.alloc (.inst cls kwargs)).register p s'.heap.length)
      | some (.group .list keys) =>                                                 -- lines 216-222
        match readAll (read order file n) p (indices keys.length)
            ((s.alloc (.list [])).register p s.heap.length) with
        | .error e => .error e
        | .ok (items, s') => .ok (s.heap.length, s'.fill s.heap.length (.list (items.map Prod.snd)))
      | some (.group .tuple keys) =>                                                -- lines 224-230
        match readAll (read order file n) p (indices keys.length) s with
        | .error e => .error e
        | .ok (items, s') =>
          .ok (s'.heap.length, (s'.alloc (.tuple (items.map Prod.snd))).register p s'.heap.length)
      | some (.labelled a) =>                                                       -- lines 236-253
        .ok (s.heap.length, (s.alloc (.labelled a)).register p s.heap.length)
      | some .none => .ok (s.heap.length, s.alloc .none)                            -- lines 255-256
      | some (.ref q) => read order file n q s                                      -- lines 261-262
      | some (.array a) => .ok (s.heap.length, s.alloc (.array a))                  -- lines 258-264
      | some (.scalar a) => .ok (s.heap.length, s.alloc (.scalar a))                -- lines 258-264
      | some .reserved => .error (.other 0)

/-- The loop over the reserved entries (storage.py:290-292): `KeyError` if one is not given. -/
def readReserved {α : Type} (reserved : List (String × Nat)) :
    List (Path × Entry α) → RState α → Except PyErr (RState α)
  | [], s => .ok s
  | ([k], .reserved) :: file, s =>
    match reserved.lookup k with
    | none => .error .keyError
    | some r => readReserved reserved file (s.register [k] r)
  | _ :: file, s => readReserved reserved file s

/-- The names at the top level of the file.  storage.py:290. -/
def rootKeys {α : Type} : List (Path × Entry α) → List String
  | [] => []
  | ([k], _) :: file => k :: rootKeys file
  | _ :: file => rootKeys file

/-- `from_hdf5` (storage.py:274-294): the dict of everything in the file, and the objects after
loading.  `heap` are the objects before loading, `reserved` the given objects. -/
def load {α : Type} (order : List String → List String) (limit : Nat) (file : List (Path × Entry α))
    (heap : List (Obj Nat α)) (reserved : List (String × Nat)) :
    Except PyErr (List (String × Nat) × List (Obj Nat α)) :=
  match readReserved reserved file ⟨heap, []⟩ with
  | .error e => .error e
  | .ok s =>
    match readAll (read order file limit) [] (order (rootKeys file)) s with
    | .error e => .error e
    | .ok (items, s) => .ok (items, s.heap)

end Qtune.Storage
