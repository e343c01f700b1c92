import Verif.EndToEnd.LimitsSpec

/-! # Voltage sources that apply the nearest voltages within their limits -/

namespace Qtune.EndToEnd

open Qtune.Tuner Qtune.Gradient Qtune.Autotuner

variable {n m : Nat}

/-- A voltage source whose limits are a convex region `A`: it applies the voltages in `A` that are nearest to those
it has been told. -/
structure Nearest (src : Volt (Fin n) → Volt (Fin n)) (A : Vec n → Prop) : Prop where
  convex : ∀ a b, A a → A b → ∀ s : ℝ, 0 ≤ s → s ≤ 1 → A (a + s • (b - a))
  nearest : ∀ q, ∃ p, src (volts q) = volts p ∧ A p ∧ ∀ z, A z → len (q - p) ≤ len (q - z)

end Qtune.EndToEnd
