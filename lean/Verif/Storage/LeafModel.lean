import Verif.Series

/-!
# Model of how single values are stored (storage.py:41-45, 114-145, 239-268)

`Storage/Model.lean` leaves the contents of leaves open.  Here are the leaves: numbers, texts, arrays, Series and DataFrames, with the
types of numpy and what h5py can store.  Simplifications: floating point numbers are real numbers or NaN, integers of numpy have 64 bits, and
the layout of a two-dimensional dataset is left out (a DataFrame is stored column by column).
-/

namespace Qtune.Storage.Leaf

/-- The versions of h5py differ in how they read texts: as `str` (2) or as `bytes` (3).  storage.py:248, 255, 262. -/
inductive H5py
  | two
  | three
  deriving DecidableEq

/-- The elements of arrays.  `other`: any other object, for example `None`, a tuple or a date.  storage.py:114-145. -/
inductive Elem
  | float (x : Val)
  | int (z : ℤ)
  | bool (b : Bool)
  | complex (re im : Val)
  | text (s : String)
  | bytes (s : String)
  | other (tag : Nat)

/-- The types of arrays.  `unicode`: `<U5` and the like; `vlen`: `h5py.special_dtype(vlen=str)`, in files only.  storage.py:41-45. -/
inductive DType
  | float64
  | int64
  | uint64
  | bool
  | complex128
  | object
  | unicode
  | datetime
  | vlen
  deriving DecidableEq

/-- An array: its type, its shape and its elements.  storage.py:131-134. -/
structure Arr where
  dtype : DType
  shape : List Nat
  data : List Elem

/-- The values that are neither containers nor instances of registered classes.  A Series has a name, an index with a name and values; a
DataFrame has an index, columns, and for each column a type and values.  storage.py:114-145. -/
inductive Leaf
  | pyFloat (x : Val)
  | pyInt (z : ℤ)
  | pyBool (b : Bool)
  | pyComplex (re im : Val)
  | npScalar (d : DType) (e : Elem)
  | text (s : String)
  | array (a : Arr)
  | series (name indexName : Option String) (index values : Arr)
  | frame (index columns : Arr) (cols : List (DType × List Elem))

/-- A dataset with its attributes: without `#type`, or with the type `str`, `Series` or `DataFrame`.  storage.py:114-145. -/
inductive Stored
  | plain (a : Arr)
  | text (s : String)
  | series (index values : Arr)
  | frame (index columns : Arr) (dtype : DType) (cols : List (List Elem))

/-- `isinstance(t, str)`.  storage.py:43. -/
def Elem.isText : Elem → Bool
  | .text _ => true
  | _ => false

/-- Texts with NUL cannot be stored (`ValueError`).  storage.py:116-142. -/
def Elem.storable : Elem → Bool
  | .text s => !s.toList.contains '\x00'
  | _ => true

/-- `_get_dtype` (storage.py:41-45). -/
def getDtype (a : Arr) : DType :=
  if a.dtype = .object then if a.data.all Elem.isText then .vlen else a.dtype else a.dtype

/-- What h5py does with data of the type `a.dtype` for a dataset or an attribute of the type `d`: `TypeError` for types
that HDF5 does not know.  storage.py:115-142. -/
def storeArr (d : DType) (a : Arr) : Except PyErr Arr :=
  match d with
  | .object => .error .typeError
  | .unicode => .error .typeError
  | .datetime => .error .typeError
  | .vlen => if a.data.all Elem.storable then .ok { a with dtype := .vlen } else .error .valueError
  | d => .ok { a with dtype := d }

/-- `dset.attrs.create` (storage.py:116-117, 125): attributes that are too large (more than `limit` entries, depending on their
type; the header of an object has 64 KB) are refused with a `RuntimeError` ("object header message is too large"). -/
def storeAttr (limit : DType → Nat) (a : Arr) : Except PyErr Arr :=
  match storeArr (getDtype a) a with
  | .error e => .error e
  | .ok b => if limit (getDtype a) < a.data.length then .error (.runtimeError "object header message is too large") else .ok b

/-- The type of `np.asarray(z)` for an integer of Python.  storage.py:137. -/
def intType (z : ℤ) : DType :=
  if -2 ^ 63 ≤ z ∧ z < 2 ^ 63 then .int64 else if 0 ≤ z ∧ z < 2 ^ 64 then .uint64 else .object

/-- `create_dataset(name, data=obj, shape=())` (storage.py:137). -/
def storeScalar (d : DType) (e : Elem) : Except PyErr Stored :=
  match storeArr d ⟨d, [], [e]⟩ with
  | .error e => .error e
  | .ok a => .ok (.plain a)

/-- The type of `np.asarray(frame)` from the types of the columns (storage.py:115): different types of numbers become
floats (or complex numbers), anything else with different types objects. -/
def commonType : List DType → DType
  | [] => .float64
  | d :: ds =>
    if ds.all (· = d) then d
    else if (d :: ds).all fun t => decide (t = .float64 ∨ t = .int64 ∨ t = .uint64) then .float64
    else if (d :: ds).all fun t => decide (t = .float64 ∨ t = .int64 ∨ t = .uint64 ∨ t = .complex128) then .complex128
    else .object

/-- The conversion of an element to the common type (storage.py:115). -/
def convert (d : DType) : Elem → Elem
  | .int z => match d with
    | .float64 => .float (some (z : ℝ))
    | .complex128 => .complex (some (z : ℝ)) (some 0)
    | _ => .int z
  | .float x => match d with
    | .complex128 => .complex x (some 0)
    | _ => .float x
  | e => e

/-- `_to_hdf5` (storage.py:114-145) for a leaf that is not yet in the file. -/
def store (limit : DType → Nat) : Leaf → Except PyErr Stored
  | .frame index columns cols =>                                                     -- lines 114-121
    match storeArr (commonType (cols.map Prod.fst)) ⟨commonType (cols.map Prod.fst), [], []⟩ with
    | .error e => .error e
    | .ok _ => match storeAttr limit index with
      | .error e => .error e
      | .ok i => match storeAttr limit columns with
        | .error e => .error e
        | .ok c => .ok (.frame i c (commonType (cols.map Prod.fst))
            (cols.map fun p => p.2.map (convert (commonType (cols.map Prod.fst)))))
  | .series _ _ index values =>                                                      -- lines 123-129
    match storeArr (getDtype values) values with
    | .error e => .error e
    | .ok v => match storeAttr limit index with
      | .error e => .error e
      | .ok i => .ok (.series i v)
  | .array a => match storeArr a.dtype a with                                        -- lines 131-134
    | .error e => .error e
    | .ok b => .ok (.plain b)
  | .pyFloat x => storeScalar .float64 (.float x)                                    -- lines 136-138
  | .pyInt z => storeScalar (intType z) (.int z)
  | .pyBool b => storeScalar .bool (.bool b)
  | .pyComplex x y => storeScalar .complex128 (.complex x y)
  | .npScalar d e => storeScalar d e
  | .text s => if Elem.storable (.text s) then .ok (.text s) else .error .valueError -- lines 140-145

/-- `np.asarray(dataset)` (storage.py:244, 250, 262). -/
def readArr (h : H5py) (a : Arr) : Arr :=
  if a.dtype = .vlen then
    { a with dtype := .object, data := a.data.map fun e => match h, e with | .three, .text s => .bytes s | _, e => e }
  else a

/-- `dataset.attrs[…]` (storage.py:242-243, 249): texts are `str` in both versions. -/
def readAttr (a : Arr) : Arr := if a.dtype = .vlen then { a with dtype := .object } else a

/-- `_from_hdf5` (storage.py:239-268) for a dataset.  `repr` is the representation of `bytes` as text. -/
def load (h : H5py) (repr : String → String) : Stored → Leaf
  | .frame index columns d cols => .frame (readAttr index) (readAttr columns) (cols.map fun c => (d, c))
  | .series index values => .series none none (readAttr index) (readArr h values)
  | .text s => match h with                                                          -- `str(np.asarray(hdf5_obj))`
    | .two => .text s
    | .three => .text (repr s)
  | .plain a => match a.shape, a.data with
    | [], [e] => .npScalar a.dtype e
    | _, _ => .array (readArr h a)

end Qtune.Storage.Leaf
