import Verif.Gui.TuneProps
import Verif.EndToEnd.PropsDot

/-!
# Pressing Start with a double dot (C161 with C165)
-/

namespace Qtune.Gui

open Autotuner EndToEnd Gradient Evaluator Evaluator.Fit _root_.Qtune.Tuner

variable {n m : Nat}

/-- **C161** with C165: a double dot is tuned from the data of its scans by pressing Start, whatever was pressed before; the worker then waits, and the true
load time, tunnel coupling and positions of the transitions are at the set points within the tolerances (and the distance of two points). -/
theorem start_tunes_double_dot {N : Numerics} (hN : N.Exact) (hp : PositiveWidths N) {D : Dot n m} {grad : Fin (m + 2) → Vec n}
    {c : Vec n} {R κ κ' : ℝ} (hD : D.Valid grad c R κ κ') (hκ : 0 ≤ κ + κ') {σ ρ η : ℝ} (hη : 0 < η)
    (hσ : ∀ x : Fin (m + 2) → ℝ, σ * len x ≤ len fun i => ∑ k, x k * (grad k i / D.scale k))
    (hρ : Real.sqrt n * (κ + κ' + D.bench.error / η) ≤ ρ) (hρσ : 2 * ρ + (κ + κ') < σ) {orth : Orth n} (ho : OrthSpec orth)
    {lstsq : Newton.Lstsq (Fin n)} (hls : Newton.LstsqSpec lstsq) (t : OneTuner (FD n) n)
    (ht : InitialEven (D.setup N grad) c η t) (L : Nat) {b : ℝ}
    (hb : missing (D.setup N grad) c + steepness (D.setup N grad) * η + (κ + κ') * η + D.bench.error ≤ b)
    (htol : ∀ k tol, (D.row k).tolerance = some tol →
      ((ρ + (κ + κ')) / (σ - ρ)) ^ (L + 1) * b + D.bench.error / (1 - (ρ + (κ + κ')) / (σ - ρ)) < tol)
    (hR : η + (b + (L + 1) * D.bench.error) / (1 - (ρ + (κ + κ')) / (σ - ρ)) / (σ - ρ) ≤ R) (before after : List SAct)
    (hready : ((⟨init, fresh t (volts c)⟩ : Session _).run (autotunerMachine (hierarchy (fdI orth) lstsq (D.outs N))) .logger
      before).1.gui.g = .ready) (hoff : HandsOff after) (hlong : 12 * n + 12 * L + 28 ≤ workerTurns after) :
    ∃ s', ((⟨init, fresh t (volts c)⟩ : Session _).run (autotunerMachine (hierarchy (fdI orth) lstsq (D.outs N))) .logger
        (before ++ .call .start :: after)).1 = s' ∧ Idle s'.gui ∧ isComplete (hierarchy (fdI orth) lstsq (D.outs N)) s'.tuner = true ∧
      ∃ q : Vec n, s'.tuner.expt = volts q ∧
        ∀ k tol, (D.row k).tolerance = some tol → |D.desired k - D.truth k q / D.scale k| < tol + D.slack k := by
  obtain ⟨M, hM, ⟨s', h1, h2, h3⟩, -⟩ := double_dot_is_tuned_partial hN hp hD hκ hη hσ hρ hρσ ho hls t ht L hb htol hR
  obtain ⟨h4, h5⟩ := start_tunes _ _ s' M h1 h2 before after hready hoff (by omega)
  exact ⟨_, rfl, h5, by rw [h4]; exact h2, by rw [h4]; exact h3⟩

/-- The interface is ready as soon as it is opened, and the worker may have any number of turns; a device that meets the other hypotheses is in
`EndToEnd/DotCase.lean`. -/
example (a : Machine Nat) (k : Nat) : ((⟨init, 0⟩ : Session Nat).run a .logger []).1.gui.g = .ready ∧ HandsOff (List.replicate k .worker) ∧
    k ≤ workerTurns (List.replicate k .worker) := by
  refine ⟨rfl, fun x hx => .inl (List.eq_of_mem_replicate hx), ?_⟩
  simp [workerTurns, List.countP_replicate]

end Qtune.Gui
