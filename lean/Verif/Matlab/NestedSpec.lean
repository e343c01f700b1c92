import Verif.Matlab.TransferSpec
import Verif.Matlab.NestedModel

/-!
# What a value should be in MATLAB
-/

namespace Qtune.Matlab

/-- The MATLAB array has the numbers of the numpy array in the same places: a table in the same rows and columns, a vector as one row. -/
def SameArray (a : NpArray ℝ) (m : MArray ℝ) : Prop :=
  (∃ (c : ℕ) (rows : List (List ℝ)), (∀ r ∈ rows, r.length = c) ∧ a = ofRows a.dtype c rows ∧ m.dims = [rows.length, c] ∧
    ∀ i j : ℕ, i < rows.length → j < c → m.entry i j = (rows[i]?).bind fun r => r[j]?) ∨
  (∃ v : List ℝ, a = ⟨a.dtype, [v.length], v⟩ ∧ m.dims = [1, v.length] ∧ ∀ j : ℕ, j < v.length → m.entry 0 j = v[j]?)

/-- The two values are the same: the same numbers under the same keys and at the same places. -/
inductive Same : PyObj → MObj → Prop
  | float (x : ℝ) : Same (.float x) (.float x)
  | int (i : ℤ) : Same (.int i) (.int i)
  | scalar (x : ℝ) : Same (.scalar (.ok x)) (.float x)
  | array {a : NpArray ℝ} {m : MArray ℝ} : SameArray a m → Same (.array a) (.array m)
  | list {l : List PyObj} {k : List MObj} : l.length = k.length →
      (∀ (i : Nat) x y, l[i]? = some x → k[i]? = some y → Same x y) → Same (.list l) (.list k)
  | tuple {l : List PyObj} {k : List MObj} : l.length = k.length →
      (∀ (i : Nat) x y, l[i]? = some x → k[i]? = some y → Same x y) → Same (.tuple l) (.list k)
  | set {l : List PyObj} {k : List MObj} : l.length = k.length →
      (∀ (i : Nat) x y, l[i]? = some x → k[i]? = some y → Same x y) → Same (.set l) (.set k)
  | dict {l : List (String × PyObj)} {k : List (String × MObj)} : l.map Prod.fst = k.map Prod.fst →
      (∀ (i : Nat) x y, l[i]? = some x → k[i]? = some y → Same x.2 y.2) → Same (.dict l) (.dict k)
  | series {l : List (String × PyObj)} {k : List (String × MObj)} : l.map Prod.fst = k.map Prod.fst →
      (∀ (i : Nat) x y, l[i]? = some x → k[i]? = some y → Same x.2 y.2) → Same (.series l) (.dict k)

/-- Values made of numbers, arrays, lists, sets, dicts and Series.  Arrays have one or two dimensions and a type that MATLAB knows, and a
Series has no label twice. -/
inductive Plain : PyObj → Prop
  | float (x : ℝ) : Plain (.float x)
  | int (i : ℤ) : Plain (.int i)
  | scalar (x : ℝ) : Plain (.scalar (.ok x))
  | table {dtype : String} {c : ℕ} {rows : List (List ℝ)} : Transferable dtype → (∀ r ∈ rows, r.length = c) →
      Plain (.array (ofRows dtype c rows))
  | vector {dtype : String} {v : List ℝ} : Transferable dtype → Plain (.array ⟨dtype, [v.length], v⟩)
  | list {l : List PyObj} : (∀ x ∈ l, Plain x) → Plain (.list l)
  | set {l : List PyObj} : (∀ x ∈ l, Plain x) → Plain (.set l)
  | dict {l : List (String × PyObj)} : (∀ x ∈ l, Plain x.2) → Plain (.dict l)
  | series {l : List (String × PyObj)} : (l.map Prod.fst).Nodup → (∀ x ∈ l, Plain x.2) → Plain (.series l)

/-- `x` is somewhere in the value, but not in a tuple. -/
inductive Inside : PyObj → PyObj → Prop
  | here (x : PyObj) : Inside x x
  | list {x y : PyObj} {l : List PyObj} : y ∈ l → Inside x y → Inside x (.list l)
  | set {x y : PyObj} {l : List PyObj} : y ∈ l → Inside x y → Inside x (.set l)
  | dict {x : PyObj} {l : List (String × PyObj)} {p : String × PyObj} : p ∈ l → Inside x p.2 → Inside x (.dict l)
  | series {x : PyObj} {l : List (String × PyObj)} {p : String × PyObj} : p ∈ l → Inside x p.2 → Inside x (.series l)

end Qtune.Matlab
