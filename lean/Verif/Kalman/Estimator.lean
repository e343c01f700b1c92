import Verif.Kalman.Model
import Verif.Gradient.FD
import Mathlib.Data.List.MinMax
import Mathlib.Data.Real.Sqrt

/-!
# Model of `KalmanGradientEstimator` (gradient.py:227-371) and
`SelfInitializingKalmanEstimator` (gradient.py:374-460)

Gates are numbered in the order of the index of `current_position`.
-/

namespace Qtune.Kalman

open Matrix

/-- An entry of `maximum_covariance`: a number or infinity.  gradient.py:250-256. -/
inductive Limit
  | fin (m : ℝ)
  | inf

/-- `x / limit`.  Used in gradient.py:296-300. -/
noncomputable def Limit.under (x : ℝ) : Limit → ℝ
  | .fin m => x / m
  | .inf => 0

/-- State of the estimator (gradient.py:244-259).  `pos` may contain NaN.  Simplification: `value` is
not NaN. -/
structure Est (n : Nat) where
  filter : KG 1 n
  pos : Fin n → Val
  value : Option ℝ
  maxCov : Fin n → Limit
  eps : Fin n → ℝ

/-- `covariance()` (gradient.py:271-273). -/
def Est.cov {n : Nat} (e : Est n) : Matrix (Fin n) (Fin n) ℝ :=
  fun i j => e.filter.P (i.cast (one_mul n).symm) (j.cast (one_mul n).symm)

/-- `estimate()` (gradient.py:268-269). -/
def Est.estimate {n : Nat} (e : Est n) : Fin n → ℝ := e.filter.grad 0

/-- `position.add(step, fill_value=0.)` (gradient.py:308, 326-328) for a step that mentions some of the
gates: an entry missing in one of the two is taken as 0, an entry missing in both is NaN. -/
noncomputable def addFill {n : Nat} (p : Fin n → Val) (step : Fin n → Option ℝ) : Fin n → Val := fun i =>
  match p i, step i with
  | none, none => none
  | some x, none => some (x + 0)
  | none, some y => some (0 + y)
  | some x, some y => some (x + y)

/-- `numpy.linalg.eigh`: eigenvalues and the matrix whose columns are the eigenvectors.
Used in gradient.py:298-302. -/
abbrev Eigh := (k : Nat) → Matrix (Fin k) (Fin k) ℝ → (Fin k → ℝ) × Matrix (Fin k) (Fin k) ℝ

/-- The number of `gate` in the list `gates`.  Order of the labels in gradient.py:296-308. -/
def position {n : Nat} (gates : List (Fin n)) (i : Fin n) : Option (Fin gates.length) :=
  (List.finRange gates.length).find? fun k => gates.get k = i

open Classical in
/-- `require_measurement(gates)` without Jacobian (gradient.py:285-309).  Simplification: all gates are
gates of the estimator. -/
noncomputable def Est.require {n : Nat} (eigh : Eigh) (gates : List (Fin n)) (e : Est n) :
    Option (Fin n → Val) :=
  let relevant : Matrix (Fin gates.length) (Fin gates.length) ℝ :=
    fun a b => e.cov (gates.get a) (gates.get b)                                   -- line 292
  let w := (eigh _ relevant).1                                                     -- line 294
  let v := (eigh _ relevant).2
  let scaled : Matrix (Fin gates.length) (Fin gates.length) ℝ := fun a j => w j * v a j    -- 297
  let rescaled : Matrix (Fin gates.length) (Fin gates.length) ℝ :=
    fun a j => (e.maxCov (gates.get a)).under (scaled a j)                          -- line 300
  let lengths : Fin gates.length → ℝ := fun j => Real.sqrt (∑ a, rescaled a j ^ 2)  -- line 303
  if ∃ j, lengths j > 1 then                                                       -- line 304
    match (List.finRange gates.length).argmax lengths with
    | none => none
    | some j => some (addFill e.pos fun i =>                                       -- lines 308-309
        (position gates i).map fun a => e.eps i * v a j)
  else none

/-- `sympy.Matrix(jacobian).nullspace()`.  Used in gradient.py:311-312. -/
abbrev Nullspace := (r k : Nat) → Matrix (Fin r) (Fin k) ℝ → List (Fin k → ℝ)

/-- The largest entry of `maximum_covariance` (gradient.py:320). -/
noncomputable def maxLimit : List Limit → Limit
  | [] => .inf
  | [l] => l
  | .inf :: _ => .inf
  | .fin m :: ls =>
    match maxLimit ls with
    | .inf => .inf
    | .fin m' => .fin (max m m')

/-- `x > limit`.  Used in gradient.py:322-324. -/
def Limit.exceeded (x : ℝ) : Limit → Prop
  | .fin m => m < x
  | .inf => False

/-- The vector on all gates with the given entries on the gates `cols`, zero elsewhere
(gradient.py:315-319). -/
noncomputable def fill {n k : Nat} (cols : Fin k → Fin n) (vec : Fin k → ℝ) : Fin n → ℝ := fun i =>
  match (List.finRange k).find? fun a => cols a = i with
  | some a => vec a
  | none => 0

open Classical in
/-- `require_measurement(gates, tuned_jacobian)` (gradient.py:311-328) for a Jacobian whose columns
are the gates `cols`; `gates` is ignored.  Simplifications: the columns are gates of the estimator; the
null space is computed without rounding. -/
noncomputable def Est.requireTuned {n r k : Nat} (nullspace : Nullspace) (cols : Fin k → Fin n)
    (J : Matrix (Fin r) (Fin k) ℝ) (e : Est n) : Option (Fin n → Val) :=
  let normalised := (nullspace r k J).map fun vec => fun a => vec a / Real.sqrt (∑ b, vec b ^ 2)  -- 312
  let filled := normalised.map (fill cols)                                          -- lines 313-319
  let limit := maxLimit (List.ofFn e.maxCov)                                        -- line 320
  let dirCov : (Fin n → ℝ) → ℝ := fun v => v ⬝ᵥ (e.cov *ᵥ v)                         -- line 321
  if ∃ v ∈ filled, limit.exceeded (dirCov v) then                                   -- line 322
    match filled.argmax dirCov with
    | none => none
    | some v => some (addFill e.pos fun i => some (e.eps i * v i))                  -- lines 326-328
  else none

/-- `change_position` (gradient.py:265-266). -/
def Est.changePosition {n : Nat} (p : Fin n → Val) (e : Est n) : Est n := { e with pos := p }

/-- `restart` (gradient.py:369-371).  The setter that `super().restart` calls assigns nothing
(gradient.py:45-48, see `Qtune.Naming`). -/
def Est.restart {n : Nat} (_ : Fin n → Val) (e : Est n) : Est n := { e with value := none }

open Classical in
/-- `update` (gradient.py:330-360).  `covariance` is the variance of the value; filterpy multiplies a
scalar `R` with the identity.  The position mentions all gates of the estimator.  NaN entries of
the difference are dropped (line 344); if any were dropped and the rest is not short, the `reshape` of
`KalmanGradient.update` raises `ValueError`. -/
noncomputable def Est.update {n : Nat} (p : Fin n → Val) (value covariance : ℝ) (isNew : Bool)
    (e : Est n) : Est n × Except PyErr Unit :=
  let diff : Fin n → Val := fun i => (p i).sub (e.pos i)                             -- line 344
  match e.value with
  | none => ({ e with value := some value, pos := p }, .ok ())                       -- lines 346-349
  | some v₀ =>
    let move : Est n → Est n := fun e =>                                            -- lines 358-360
      if isNew then { e with value := some value, pos := p } else e
    if Real.sqrt (∑ i, (diff i).getD 0 ^ 2) < 1 / 10000000 then (move e, .ok ())      -- line 353
    else if ∃ i, diff i = none then (e, .error .valueError)
    else match e.filter.update (fun i => (diff i).getD 0) (fun _ => value - v₀)
        (some (covariance • (1 : Matrix (Fin 1) (Fin 1) ℝ))) none true with           -- lines 354-356
      | (f, .error err) => ({ e with filter := f }, .error err)
      | (f, .ok ()) => (move { e with filter := f }, .ok ())

/-- `KalmanGradient(**k.to_hdf5())` (kalman_gradient.py:140-148 and 52-138): the state vector is stored as
the gradient matrix and flattened again row by row (line 123). -/
def KG.reload {m n : Nat} (f : KG m n) : KG m n :=
  KG.new (some f.F) (some fun j => f.grad j.divNat j.modNat) (some f.P) (some f.R) (some f.Q) f.alpha

/-- `KalmanGradientEstimator(**e.to_hdf5())` (gradient.py:362-367 and 228-259).  The assertions about the
index hold because all series have the index of the position. -/
def Est.reload {n : Nat} (e : Est n) : Est n := ⟨e.filter.reload, e.pos, e.value, e.maxCov, e.eps⟩

/-! ### The self initialising estimator -/

/-- The keyword arguments for `KalmanGradientEstimator` in `kalman_arguments` (gradient.py:382), `none`
if the dict has no such key.  Simplification: both are scalars. -/
structure KalmanArguments where
  maximumCovariance : Option Limit
  epsilon : Option ℝ

/-- State of `SelfInitializingKalmanEstimator` (gradient.py:376-384).  `gradientArguments` are the names
in `kalman_gradient_args`.  `none` is `None`. -/
structure SelfInit (n : Nat) where
  fd : Gradient.FD n
  kalman : Option (Est n)
  kalmanArguments : Option KalmanArguments
  gradientArguments : Option (List String)

/-- `from_scratch` (gradient.py:387-399). -/
def SelfInit.fromScratch {n : Nat} (pos : Option (Gradient.Vec n)) (eps : Gradient.Vec n)
    (maximumCovariance : Limit) (symmetric : Bool) : SelfInit n :=
  ⟨Gradient.FD.new pos eps symmetric, none, some ⟨some maximumCovariance, none⟩, none⟩

/-- `dataframe ** arguments` (gradient.py:449-450): a power, because the comma before
`**self._kalman_gradient_arguments` is missing.  `TypeError` for `None` and for a dict. -/
def power {n : Nat} (_ : Matrix (Fin n) (Fin n) ℝ) (_ : Option (List String)) :
    Except PyErr (Matrix (Fin n) (Fin n) ℝ) := .error .typeError

/-- `KalmanGradientEstimator(kalman_gradient=…, current_position=…, current_value=…, **arguments)`
(gradient.py:451-454 and 228-259): `TypeError` if a required argument is missing. -/
def Est.make {n : Nat} (filter : KG 1 n) (p : Gradient.Vec n) (value : ℝ) :
    Option KalmanArguments → Except PyErr (Est n)
  | some ⟨some m, some eps⟩ => .ok ⟨filter, fun i => some (p i), some value, fun _ => m, fun _ => eps⟩
  | _ => .error .typeError

/-- `update` (gradient.py:437-454).  Simplification: a NaN in the finite difference gradient or
covariance is written as 0. -/
noncomputable def SelfInit.update {n : Nat} (p : Gradient.Vec n) (value covariance : ℝ) (isNew : Bool)
    (e : SelfInit n) : SelfInit n × Except PyErr Unit :=
  match e.fd.update p (some value) (some covariance) with                            -- line 438
  | (fd, .error err) => ({ e with fd := fd }, .error err)
  | (fd, .ok ()) =>
    match e.kalman with
    | some k =>                                                                     -- lines 440-441
      match k.update (fun i => some (p i)) value covariance isNew with
      | (k, r) => ({ e with fd := fd, kalman := some k }, r)
    | none =>
      match fd.estimate with                                                        -- line 443
      | none => ({ e with fd := fd }, .ok ())
      | some (g, C) =>
        match power (C.getD 0) e.gradientArguments with                             -- lines 446-450
        | .error err => ({ e with fd := fd }, .error err)
        | .ok P =>
          match Est.make (KG.new none (some fun j => (g (j.cast (one_mul n))).getD 0)
              (some fun i j => P (i.cast (one_mul n)) (j.cast (one_mul n))) none none 1) p value
              e.kalmanArguments with
          | .error err => ({ e with fd := fd }, .error err)
          | .ok k => ({ e with fd := fd, kalman := some k }, .ok ())

/-- `estimate()` of the active estimator (gradient.py:410-411, 428-429). -/
def SelfInit.estimate {n : Nat} (e : SelfInit n) : Option (Fin n → Val) :=
  match e.kalman with
  | some k => some fun i => some (k.estimate i)
  | none => e.fd.estimate.map Prod.fst

end Qtune.Kalman
