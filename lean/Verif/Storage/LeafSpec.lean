import Verif.Storage.LeafModel

/-!
# What "a stored value is loaded as it was" means

Written with the values alone, without the functions that store and load.
-/

namespace Qtune.Storage.Leaf

/-- The types of numpy that HDF5 knows. -/
def Plain (d : DType) : Prop := d = .float64 ∨ d = .int64 ∨ d = .uint64 ∨ d = .bool ∨ d = .complex128

/-- The types of numbers that numpy brings to a common type without loss. -/
def Numeric (d : DType) : Prop := d = .float64 ∨ d = .int64 ∨ d = .uint64 ∨ d = .complex128

/-- The number that an element stands for: real and imaginary part. -/
def Elem.number : Elem → Option (Val × Val)
  | .float x => some (x, some 0)
  | .int z => some (some (z : ℝ), some 0)
  | .complex x y => some (x, y)
  | _ => none

/-- Two elements are the same value: the same number (perhaps of a different type), or the same element. -/
def Same (a b : Elem) : Prop := a = b ∨ ∃ n, a.number = some n ∧ b.number = some n

/-- A kind of value, as far as the documentation of qtune tells kinds apart. -/
inductive Kind
  | scalar
  | text
  | array (shape : List Nat)
  | series
  | frame
  deriving DecidableEq

/-- The kind of a value; an array without dimensions counts as a number. -/
def Leaf.kind : Leaf → Kind
  | .text _ => .text
  | .array a => if a.shape = [] then .scalar else .array a.shape
  | .series .. => .series
  | .frame .. => .frame
  | _ => .scalar

/-- The values of a leaf, column by column. -/
def Leaf.entries : Leaf → List (List Elem)
  | .pyFloat x => [[.float x]]
  | .pyInt z => [[.int z]]
  | .pyBool b => [[.bool b]]
  | .pyComplex x y => [[.complex x y]]
  | .npScalar _ e => [[e]]
  | .text s => [[.text s]]
  | .array a => [a.data]
  | .series _ _ _ v => [v.data]
  | .frame _ _ cols => cols.map Prod.snd

/-- The labels of a leaf: index and columns. -/
def Leaf.labels : Leaf → List (List Elem)
  | .series _ _ i _ => [i.data]
  | .frame i c _ => [i.data, c.data]
  | _ => []

/-- An element of an array of this type.  Arrays of texts and the like are arrays of objects. -/
def Fits : DType → Elem → Prop
  | .float64, .float _ => True
  | .int64, .int _ => True
  | .uint64, .int _ => True
  | .bool, .bool _ => True
  | .complex128, .complex _ _ => True
  | .object, _ => True
  | .unicode, .text _ => True
  | .datetime, .other _ => True
  | _, _ => False

/-- An array as it exists in memory: its type is one of numpy, its elements fit its type and fill its shape. -/
def Arr.Valid (a : Arr) : Prop :=
  a.dtype ≠ .vlen ∧ (∀ e ∈ a.data, Fits a.dtype e) ∧ a.data.length = a.shape.foldr (· * ·) 1

/-- A value as it exists in memory. -/
def Leaf.Valid : Leaf → Prop
  | .npScalar d e => Fits d e ∧ d ≠ .object
  | .array a => a.Valid
  | .series _ _ i v => i.Valid ∧ v.Valid
  | .frame i c cols => i.Valid ∧ c.Valid ∧ ∀ p ∈ cols, p.1 ≠ .vlen ∧ ∀ e ∈ p.2, Fits p.1 e
  | _ => True

/-- A text without NUL. -/
def NoNul (s : String) : Prop := '\x00' ∉ s.toList

/-- An array of texts, none of which contains NUL. -/
def Texts (a : Arr) : Prop := a.dtype = .object ∧ ∀ e ∈ a.data, ∃ s, e = .text s ∧ NoNul s

/-- Labels that can be stored: numbers, truth values or texts, and not too many of them. -/
def GoodLabels (limit : DType → Nat) (a : Arr) : Prop :=
  (Plain a.dtype ∧ a.data.length ≤ limit a.dtype) ∨ (Texts a ∧ a.data.length ≤ limit .vlen)

/-- The values that can be stored. -/
def Storable (limit : DType → Nat) : Leaf → Prop
  | .pyFloat _ => True
  | .pyInt z => -2 ^ 63 ≤ z ∧ z < 2 ^ 64
  | .pyBool _ => True
  | .pyComplex _ _ => True
  | .npScalar d _ => Plain d
  | .text s => NoNul s
  | .array a => Plain a.dtype
  | .series _ _ i v => (Plain v.dtype ∨ Texts v) ∧ GoodLabels limit i
  | .frame i c cols =>
      ((∃ d, Plain d ∧ ∀ p ∈ cols, p.1 = d) ∨ ∀ p ∈ cols, Numeric p.1) ∧ GoodLabels limit i ∧ GoodLabels limit c

/-- The values that come back without any difference, not even in their type. -/
def Exact : Leaf → Prop
  | .pyFloat _ => False
  | .pyInt _ => False
  | .pyBool _ => False
  | .pyComplex _ _ => False
  | .npScalar _ _ => True
  | .text _ => True
  | .array a => a.shape ≠ []
  | .series name indexName _ _ => name = none ∧ indexName = none
  | .frame _ _ cols => ∃ d, ∀ p ∈ cols, p.1 = d

end Qtune.Storage.Leaf
