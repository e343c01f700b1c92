import Verif.Base

/-!
# Model of the names of dict entries in a file (storage.py:87-93, 178-200)

`Verif/Storage/Model.lean` assumes keys without `/`.  Here the keys are arbitrary strings: HDF5 takes them as paths.
-/

namespace Qtune.Storage.Keys

/-- The contents of a file: groups and datasets.  storage.py:88-139. -/
inductive Tree (α : Type)
  | leaf (a : α)
  | group (members : List (String × Tree α))

/-- The text is cut at each `/`.  Names given to `create_dataset` in storage.py:84-149 are paths. -/
def cut : List Char → List (List Char)
  | [] => [[]]
  | c :: cs =>
    if c = '/' then [] :: cut cs
    else match cut cs with
      | [] => [[c]]
      | w :: ws => (c :: w) :: ws

/-- The steps of the path: HDF5 ignores empty steps and `.`.  Names in storage.py:84-149. -/
def steps (key : String) : List String :=
  ((cut key.toList).map String.ofList).filter fun w => w ≠ "" ∧ w ≠ "."

/-- A path that begins with `/` starts at the root of the file.  Names in storage.py:84-149. -/
def isAbsolute (key : String) : Bool := key.toList.head? = some '/'

/-- The members with the one of name `k` replaced.  Used for storage.py:84-149. -/
def replace {α : Type} (k : String) (t : Tree α) : List (String × Tree α) → List (String × Tree α)
  | [] => []
  | m :: ms => if m.1 = k then (k, t) :: ms else m :: replace k t ms

/-- `create_dataset(path, data=a)`: groups on the way are made if they are missing; `ValueError` if the name exists or a dataset is in the way.
storage.py:137-139. -/
def put {α : Type} (a : α) : List String → Tree α → Except PyErr (Tree α)
  | _, .leaf _ => .error .valueError
  | [], .group _ => .error .valueError
  | [k], .group ms =>
    match ms.lookup k with
    | some _ => .error .valueError
    | none => .ok (.group (ms ++ [(k, .leaf a)]))
  | k :: l :: ks, .group ms =>
    match ms.lookup k with
    | some sub =>
      match put a (l :: ks) sub with
      | .error e => .error e
      | .ok sub' => .ok (.group (replace k sub' ms))
    | none =>
      match put a (l :: ks) (.group []) with
      | .error e => .error e
      | .ok sub' => .ok (.group (ms ++ [(k, sub')]))

/-- The loop over the items of the dict that is stored under `name` (storage.py:90-91).  Simplification: the values are numbers, strings and the like, each stored as
one dataset, and none of them is stored twice. -/
def putAll {α : Type} (name : String) : List (String × α) → Tree α → Except PyErr (Tree α)
  | [], f => .ok f
  | (k, a) :: items, f =>
    if steps k = [] then .error .valueError
    else match put a (if isAbsolute k then steps k else name :: steps k) f with
      | .error e => .error e
      | .ok f' => putAll name items f'

/-- `to_hdf5(file, name, d)` for a new file and a dict (storage.py:87-93, 156-176). -/
def save {α : Type} (name : String) (items : List (String × α)) : Except PyErr (Tree α) := putAll name items (.group [(name, .group [])])

/-- What `from_hdf5(file)[name]` gives (storage.py:192-199, 283-294): each group is loaded as a dict, with or without `#type`. -/
def load {α : Type} (name : String) : Tree α → Option (Tree α)
  | .leaf _ => none
  | .group ms => ms.lookup name

end Qtune.Storage.Keys
