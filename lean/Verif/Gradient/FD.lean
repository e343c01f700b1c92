import Verif.Gradient.Util

/-!
# Model of `FiniteDifferencesGradientEstimator` (gradient.py:75-224)

Gates are numbered in the order of the index of `current_position`.
-/

namespace Qtune.Gradient

/-- A position that mentions some of the gates.  Positions of gradient.py:76-83. -/
abbrev Partial (n : Nat) := Fin n → Option ℝ

/-- State of the estimator (gradient.py:98-124).  `pos = none` is a position with all entries NaN.
Simplifications: positions are otherwise free of NaN; `stored` holds position, value and
variance of each measurement, value and variance may be NaN.  `estimate` holds the gradient and
its covariance (`none`: all entries NaN). -/
structure FD (n : Nat) where
  pos : Option (Vec n)
  eps : Vec n
  symmetric : Bool
  estimate : Option ((Fin n → Val) × Option (Matrix (Fin n) (Fin n) ℝ))
  stored : List (Vec n × Val × Val)
  requested : List (Partial n)

/-- The constructor without previous measurements (gradient.py:76-124). -/
def FD.new {n : Nat} (pos : Option (Vec n)) (eps : Vec n) (symmetric : Bool) : FD n :=
  ⟨pos, eps, symmetric, none, [], []⟩

/-- `FiniteDifferencesGradientEstimator(**est.to_hdf5())` (gradient.py:217-224 and 76-124).  The
loop of lines 115-117 compares `measurement.index` with the index of epsilon; a measurement is a
tuple, so that this is the method `tuple.index` and `assert_index_equal` raises `AssertionError`.
All other fields are passed on unchanged. -/
def FD.reload {n : Nat} (e : FD n) : Except PyErr (FD n) :=
  match e.stored with
  | [] => .ok e
  | _ :: _ => .error .assertionError

/-- `v[gates]`, written as the vector that is zero on all other gates.  Used in gradient.py:147-178. -/
def restrict {n : Nat} (gates : List (Fin n)) (v : Vec n) : Vec n :=
  fun i => if i ∈ gates then v i else 0

/-- `get_orthogonal_vector` (util.py:202-208): the first vector, normalised, of the null space of
the matrix with the given rows, computed by sympy; `none` if the null space is trivial and
the unpacking raises `ValueError`.  Vectors on `gates` are vectors that vanish elsewhere. -/
abbrev Orth (n : Nat) := List (Fin n) → List (Vec n) → Option (Vec n)

/-- The displacement of the next point to measure, before scaling with epsilon, and whether it is
counted from the current position (gradient.py:150-178).  The other case is the mirror image of
the last measured point (line 158). -/
inductive Next (n : Nat)
  | offset (u : Vec n)
  | mirror (p : Vec n)

/-- The branches of `require_measurement` (gradient.py:147-178) that choose the next point. -/
noncomputable def nextPoint {n : Nat} (orth : Orth n) (gates : List (Fin n)) (symmetric : Bool)
    (measured : List (Vec n)) : Except PyErr (Next n) :=
  match measured.getLast? with
  | none =>                                                              -- lines 149-153
    match gates with
    | [] => .error .indexError
    | g :: _ => .ok (.offset (Pi.single g 1))
  | some last =>
    if symmetric then
      if measured.length % 2 = 1 then .ok (.mirror last)                 -- lines 157-158
      else match orth gates (pairDiffs measured) with                    -- lines 159-164
        | none => .error .valueError
        | some u => .ok (.offset u)
    else if measured.length = 1 then                                     -- lines 168-169
      match orth gates [0] with
      | none => .error .valueError
      | some u => .ok (.offset u)
    else if measured.length ≤ n then                                     -- lines 170-172
      match orth gates (baseDiffs measured) with
      | none => .error .valueError
      | some u => .ok (.offset u)
    else .error (.runtimeError "Congratulations! You encountered a bug!") -- line 174

/-- The requested position for the chosen point; it mentions `gates` only.  gradient.py:150-180. -/
def request {n : Nat} (gates : List (Fin n)) (c eps : Vec n) : Next n → Partial n
  | .offset u => fun i => if i ∈ gates then some (c i + u i * eps i) else none
  | .mirror p => fun i => if i ∈ gates then some (2 * c i - p i) else none

/-- `require_measurement` (gradient.py:139-180). The tuned Jacobian is ignored by this class. -/
noncomputable def FD.require {n : Nat} (orth : Orth n) (gates : List (Fin n)) (e : FD n) :
    FD n × Except PyErr (Option (Partial n)) :=
  match e.pos with
  | none => (e, .error (.runtimeError
      "No measurement can be requested before defining the current position."))  -- line 144
  | some c =>
    match e.estimate with
    | some _ => (e, .ok none)
    | none =>
      match nextPoint orth gates e.symmetric (e.stored.map fun m => restrict gates m.1) with
      | .error err => (e, .error err)
      | .ok next =>
        ({ e with requested := e.requested ++ [request gates c e.eps next] },
          .ok (some (request gates c e.eps next)))

/-- All numbers of a list, if none is NaN.  Used for util.py:175-196. -/
def allReal : List Val → Option (List ℝ)
  | [] => some []
  | none :: _ => none
  | some x :: xs => (allReal xs).map (x :: ·)

/-- `calculate_gradient_non_orthogonal` applied to measurements whose values or variances may be
NaN: a NaN value makes all entries of the gradient NaN, a NaN variance all entries of the
covariance.  gradient.py:207-215, util.py:160-199. -/
noncomputable def gradientOf {n : Nat} (ms : List (Vec n × Val × Val)) :
    Except PyErr ((Fin n → Val) × Option (Matrix (Fin n) (Fin n) ℝ)) :=
  let positions := ms.map fun m => m.1
  let values := allReal (ms.map fun m => m.2.1)
  let variances := allReal (ms.map fun m => m.2.2)
  match calculateGradient positions (values.getD (ms.map fun _ => 0))
      (variances.getD (ms.map fun _ => 0)) with
  | .error e => .error e
  | .ok (g, C) =>
    .ok (if values.isSome then fun i => some (g i) else fun _ => none,
      if variances.isSome then some C else none)

/-- `update` (gradient.py:182-215).  `is_new_position` is ignored by this class.  Simplification:
the position mentions all gates of the estimator. -/
noncomputable def FD.update {n : Nat} (p : Vec n) (value variance : Val) (e : FD n) :
    FD n × Except PyErr Unit :=
  match e.pos with
  | none =>                                                                       -- lines 185-189
    ({ e with pos := some p,
              stored := if e.symmetric then e.stored else e.stored ++ [(p, value, variance)] },
      .ok ())
  | some _ =>
    match e.estimate with
    | some _ => (e, .ok ())
    | none =>
      let e := { e with stored := e.stored ++ [(p, value, variance)] }             -- line 192
      if e.symmetric = true ∧ e.stored.length = 2 * n then                         -- line 196
        match gradientOf e.stored with
        | .error err => (e, .error err)
        | .ok r => ({ e with estimate := some r }, .ok ())
      else if e.symmetric = false ∧ e.stored.length = n + 1 then                   -- line 201
        match gradientOf e.stored.reverse with
        | .error err => (e, .error err)
        | .ok r => ({ e with estimate := some r }, .ok ())
      else (e, .ok ())

end Qtune.Gradient
