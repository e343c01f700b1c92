import Verif.History.Model

/-!
# Specification of the history
-/

namespace Qtune.History

variable {γ κ ρ π W X V P C : Type}

/-- The maximal runs of consecutive entries with the same voltages: the voltages of each run and the path of its
last entry. -/
def runs [DecidableEq γ] : List (γ × π) → List (γ × π)
  | [] => []
  | [e] => [e]
  | e :: e' :: l => if e.1 = e'.1 then runs (e' :: l) else e :: runs (e' :: l)

/-- Whenever the voltages changed, a tuner had been evaluated when the autotuner was appended.  (The voltages in
the history are those of the latest evaluation of the first tuner, see `run_append_ok`.) -/
def MovesEvaluated (l : List (View γ κ ρ × π)) : Prop :=
  l.IsChain fun a b => a.1.voltages ≠ b.1.voltages → 0 < b.1.evaluated

/-! ## Runs of the autotuner -/

/-- What the history reads of the tuners. -/
structure Reader (W γ κ ρ : Type) where
  /-- `last_voltages` of the first tuner -/
  lastVoltages : W → γ
  /-- parameters, variances, gradients and covariances of the tuners -/
  cols : W → Nat → List (κ × ρ)

/-- What the history reads of an autotuner. -/
def Reader.view (R : Reader W γ κ ρ) (H : Autotuner.Hierarchy W X V P C) (s : Autotuner.State W X V) :
    View γ κ ρ :=
  ⟨R.lastVoltages s.tuners, (List.range H.len).map (R.cols s.tuners), s.index, s.pending.isSome, s.status⟩

/-- An evaluation of tuner `i` changes, of the other tuners, only what they share with it (such as the gradients of common gradient estimators), and
the last voltages only if it is the first tuner; the same for requests for the next voltages of tuner `i`, which do not change the last voltages; what
tuners share has the same value for all of them. -/
structure Faithful (R : Reader W γ κ ρ) (H : Autotuner.Hierarchy W X V P C) (toRow : V → γ) : Prop where
  evaluated : ∀ i v w x w' x' b, H.isTuned i v w x = ((w', x'), .ok b) →
    (∀ j c y, j ≠ i → (c, y) ∈ R.cols w' j → (∃ z, (c, z) ∈ R.cols w' i) ∨ (c, y) ∈ R.cols w j) ∧
    R.lastVoltages w' = if i = 0 then toRow v else R.lastVoltages w
  suggested : ∀ i p w w' v, H.nextVolt i p w = (w', .ok v) →
    (∀ j c y, j ≠ i → (c, y) ∈ R.cols w' j → (∃ z, (c, z) ∈ R.cols w' i) ∨ (c, y) ∈ R.cols w j) ∧ R.lastVoltages w' = R.lastVoltages w
  agree : ∀ i j w c y z, (c, y) ∈ R.cols w i → (c, z) ∈ R.cols w j → y = z

/-- The tuners evaluated since the voltages were set last. -/
def sinceWrite (evs : List (Autotuner.Event W V P)) : List Nat :=
  evs.foldl (fun l e => match e with
    | .wrote _ _ => []
    | .evaluated i _ (.ok _) => l ++ [i]
    | _ => l) []

/-- `n` calls of `iterate`; the autotuner is appended to the history after each of them. -/
def recorded [DecidableEq γ] (R : Reader W γ κ ρ) (H : Autotuner.Hierarchy W X V P C) (path : Nat → π)
    (s₀ : Autotuner.State W X V) :
    Nat → Except PyErr (Autotuner.State W X V × Hist γ κ ρ π × List (Autotuner.Event W V P))
  | 0 => .ok (s₀, Hist.empty, [])
  | n + 1 =>
    match recorded R H path s₀ n with
    | .error e => .error e
    | .ok (s, h, evs) =>
      match Autotuner.iterate H (.ok ()) s with
      | (_, _, .error e) => .error e
      | (s', evs', .ok ()) =>
        match append h (R.view H s') (path n) with
        | .error e => .error e
        | .ok h' => .ok (s', h', evs ++ evs')

/-- The last row has, for every tuner evaluated since the voltages were set, the values of its latest
evaluation. -/
def LatestRecorded [DecidableEq κ] (R : Reader W γ κ ρ) (s : Autotuner.State W X V) (h : Hist γ κ ρ π)
    (evs : List (Autotuner.Event W V P)) : Prop :=
  ∀ i ∈ sinceWrite evs, ∃ r, h.rows.getLast? = some r ∧ r.voltages = R.lastVoltages s.tuners ∧
    ∀ c y, (c, y) ∈ R.cols s.tuners i → r.cells.lookup c = some y

/-- All voltages that are set differ from the voltages of the latest evaluation of the first tuner. -/
def AlwaysMoves (R : Reader W γ κ ρ) (H : Autotuner.Hierarchy W X V P C) (toRow : V → γ)
    (s : Autotuner.State W X V) (h : Hist γ κ ρ π) : Prop :=
  h.rows ≠ [] → s.index = 0 → s.pending = none → s.status = false →
    toRow (H.read s.expt) ≠ R.lastVoltages s.tuners

/-! ## Gradients -/

/-- A name with the characters allowed for gates: letters, digits, underscores and spaces. -/
def GateName (g : Name) : Prop := g ≠ [] ∧ ∀ c ∈ g, c.isAlphanum = true ∨ c = '_' ∨ c.isWhitespace = true

/-- The columns of the data frame for some parameters and gates, except `tuner_index`. -/
inductive Column (params gates : List Name) : Name → Prop
  | gate {g} : g ∈ gates → Column params gates g
  | parameter {p} : p ∈ params → Column params gates p
  | variance {p} : p ∈ params → Column params gates (varianceName p)
  | gradient {p g} : p ∈ params → g ∈ gates → Column params gates (gradientName p g)
  | covariance {p g₁ g₂} : p ∈ params → g₁ ∈ gates → g₂ ∈ gates →
      Column params gates (covarianceName p g₁ g₂)

end Qtune.History
