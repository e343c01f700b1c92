import Verif.Gradient.FD
import Verif.Gradient.UtilProps

/-! # Specification of the finite difference protocol -/

namespace Qtune.Gradient

/-- The inner product. -/
def inner {n : Nat} (u v : Vec n) : ℝ := ∑ i, u i * v i

/-- What is assumed of sympy's null space and the normalisation: the result is a vector of length 1
on the given gates which is orthogonal to the given vectors, and there is a result if there is
any such vector. -/
structure OrthSpec {n : Nat} (orth : Orth n) : Prop where
  support : ∀ gates vs u, orth gates vs = some u → ∀ i, i ∉ gates → u i = 0
  unit : ∀ gates vs u, orth gates vs = some u → inner u u = 1
  orthogonal : ∀ gates vs u, orth gates vs = some u → ∀ v ∈ vs, inner u v = 0
  complete : ∀ gates vs u, (∀ i, i ∉ gates → u i = 0) → (∀ v ∈ vs, inner u v = 0) → u ≠ 0 →
    orth gates vs ≠ none

/-- One round of the protocol: ask for a position, measure there, update.  Gates that the request
does not mention stay at `base`.  `f` is the exact response. -/
noncomputable def round {n : Nat} (orth : Orth n) (gates : List (Fin n)) (f : Vec n → ℝ)
    (base : Vec n) (variance : ℝ) (e : FD n) : Except PyErr (FD n) :=
  match e.require orth gates with
  | (_, .error err) => .error err
  | (_, .ok none) => .error (.other 0)
  | (e', .ok (some r)) =>
    let p : Vec n := fun i => (r i).getD (base i)
    match e'.update p (some (f p)) (some variance) with
    | (_, .error err) => .error err
    | (e'', .ok ()) => .ok e''

/-- Several rounds, one for each of the given measurement variances.  Fails with the first error;
`PyErr.other 0` stands for "nothing is requested any more". -/
noncomputable def rounds {n : Nat} (orth : Orth n) (gates : List (Fin n)) (f : Vec n → ℝ)
    (base : Vec n) : List ℝ → FD n → Except PyErr (FD n)
  | [], e => .ok e
  | v :: vs, e =>
    match round orth gates f base v e with
    | .error err => .error err
    | .ok e' => rounds orth gates f base vs e'

end Qtune.Gradient
