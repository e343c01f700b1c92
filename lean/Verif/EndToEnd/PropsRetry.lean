import Verif.EndToEnd.RetryLemmas
import Verif.EndToEnd.PropsHierarchy

/-!
# Exceptions that are caught do no harm

`Fault` (`RetryModel`) lists what goes wrong during a call of `iterate`.  `Same` (`RetrySpec`) says that two states
differ in nothing that matters.
-/

namespace Qtune.EndToEnd

open Qtune.Tuner Qtune.Gradient Qtune.Autotuner Qtune.Kalman

variable {X : Type} {n m K : Nat}

theorem Same.orderly {a b : Autotuner.State (Shared X n) (Volt (Fin n)) (Volt (Fin n))} (h : Same a b)
    (ho : Orderly b) : Orderly a := fun hs => by
  rw [h.pending]
  exact ho (h.status ▸ hs)

theorem same_calls {I : Newton.EstI X (Fin n)} {lstsq : Newton.Lstsq (Fin n)}
    {outs : Nat → Volt (Fin n) → List Outcome} : ∀ (fs : List (Fault n))
    (a b : Autotuner.State (Shared X n) (Volt (Fin n)) (Volt (Fin n))), Same a b → Orderly a →
    ∃ M, fs.countP Fault.mild ≤ M ∧ M ≤ fs.length ∧
      Same (faultyCalls I lstsq K outs fs a) (faultyCalls I lstsq K outs (List.replicate M .none) b) ∧
      Orderly (faultyCalls I lstsq K outs fs a)
  | [], a, b, h, ho => ⟨0, le_rfl, le_rfl, h, ho⟩
  | f :: fs, a, b, h, ho => by
    rcases interrupted_or_not I lstsq K outs f a with ⟨hf, -, hs⟩ | ⟨hs, -⟩
    · obtain ⟨M, h1, h2, h3⟩ := same_calls fs _ b (hs.trans h) (hs.orderly ho)
      refine ⟨M, ?_, h2.trans (by simp), h3⟩
      rw [List.countP_cons_of_neg (by simp [hf])]
      exact h1
    · obtain ⟨h4, h5, -⟩ := h.iterate (I := I) (lstsq := lstsq) (K := K) (outs := outs) ho
      obtain ⟨M, h1, h2, h3⟩ := same_calls fs _ _ h4 h5
      refine ⟨M + 1, ?_, by simpa using h2, ?_⟩
      · rw [List.countP_cons]
        split <;> omega
      · rw [List.replicate_succ]
        simp only [faultyCalls] at h3 ⊢
        rw [hs]
        exact h3

/-- **C144**.  Evaluators, `set_gate_voltages` and saving may raise in any of the calls of `iterate`, a failing
`set_gate_voltages` may leave the gates at any voltages.  If the caller catches the exceptions and goes on calling `iterate`,
the state they reach is the state that is reached by `M` calls without exceptions, up to values that are not going to be
used.  `M` is at most the number of calls, and at least the number of those calls during which neither an evaluator nor
`set_gate_voltages` was going to raise.  The next call without exception also reports the same. -/
theorem caught_exceptions_are_harmless (I : Newton.EstI X (Fin n)) (lstsq : Newton.Lstsq (Fin n)) (K : Nat)
    (outs : Nat → Volt (Fin n) → List Outcome) (fs : List (Fault n))
    (s : Autotuner.State (Shared X n) (Volt (Fin n)) (Volt (Fin n))) (hs : s.status = true → s.pending = none) :
    ∃ M, fs.countP Fault.mild ≤ M ∧ M ≤ fs.length ∧
      Same (faultyCalls I lstsq K outs fs s) (faultyCalls I lstsq K outs (List.replicate M .none) s) ∧
      (faultyCall I lstsq K outs .none (faultyCalls I lstsq K outs fs s)).2.2 =
        (faultyCall I lstsq K outs .none (faultyCalls I lstsq K outs (List.replicate M .none) s)).2.2 := by
  obtain ⟨M, h1, h2, h3, h4⟩ := same_calls (I := I) (lstsq := lstsq) (outs := outs) (K := K) fs s s (Same.rfl' s) hs
  exact ⟨M, h1, h2, h3, (h3.iterate h4).2.2⟩

/-- **C144**.  One call: if an evaluator or `set_gate_voltages` raises, `iterate` raises and the state is the same as
before; otherwise the new state is the one that is reached without fault. -/
theorem interrupted_call_changes_nothing (I : Newton.EstI X (Fin n)) (lstsq : Newton.Lstsq (Fin n)) (K : Nat)
    (outs : Nat → Volt (Fin n) → List Outcome) (f : Fault n)
    (s : Autotuner.State (Shared X n) (Volt (Fin n)) (Volt (Fin n))) :
    ((∃ e, (faultyCall I lstsq K outs f s).2.2 = .error e) ∧ Same (faultyCall I lstsq K outs f s).1 s) ∨
    (faultyCall I lstsq K outs f s).1 = (faultyCall I lstsq K outs .none s).1 :=
  (interrupted_or_not I lstsq K outs f s).imp (fun h => h.2) (fun h => h.1)

theorem busy_pending {I : Newton.EstI X (Fin n)} {lstsq : Newton.Lstsq (Fin n)}
    {outs : Nat → Volt (Fin n) → List Outcome} (s : Autotuner.State (Shared X n) (Volt (Fin n)) (Volt (Fin n)))
    (h : s.pending ≠ none → s.index < K) :
    (faultyCall I lstsq K outs .none s).1.pending ≠ none → (faultyCall I lstsq K outs .none s).1.index < K := by
  obtain ⟨w, x, i, st, p⟩ := s
  simp only [faultyCall, iterate, faultyHierarchy, multiHierarchy, Fault.saving, Fault.outs, Fault.setVolt, isComplete]
  by_cases hc : i = K
  · simpa [hc] using h
  · cases p with
    | some v =>
      by_cases hv : ∃ i, v i = none
      · simpa [hc, hv] using h
      · simp [hc, hv, finish]
    | none =>
      by_cases hi : K ≤ i
      · simp [hc, hi]
      · cases st with
        | false =>
          rcases hr : (isTuned (Newton.solver I lstsq) (outs i x) x (w.get i)).2 with e | (_ | _) <;>
            simp [hc, hi, finish, hr]
        | true =>
          generalize nextVoltages (Newton.solver I lstsq) _ (w.get i) = r
          rcases r with ⟨t, e | v⟩
          · simp [hc, hi]
          · simpa [hc, hi, finish] using (not_le.1 hi)

theorem calls_of_iterates {I : Newton.EstI X (Fin n)} {lstsq : Newton.Lstsq (Fin n)}
    {outs : Nat → Volt (Fin n) → List Outcome} : ∀ (M : Nat)
    (s s' : Autotuner.State (Shared X n) (Volt (Fin n)) (Volt (Fin n))),
    (s.pending ≠ none → s.index < K) → iterates (multiHierarchy I lstsq K outs) M s = .ok s' →
    faultyCalls I lstsq K outs (List.replicate M .none) s = s' ∧ (s'.pending ≠ none → s'.index < K)
  | 0, s, s', hp, h => by
    simp only [iterates, Except.ok.injEq] at h
    subst h
    exact ⟨rfl, hp⟩
  | M + 1, s, s', hp, h => by
    rw [iterates] at h
    split at h
    · cases h
    · rename_i s1 _ heq
      have h1 : (faultyCall I lstsq K outs .none s).1 = s1 := congrArg Prod.fst heq
      have h2 := busy_pending (I := I) (lstsq := lstsq) (outs := outs) s hp
      rw [h1] at h2
      obtain ⟨h3, h4⟩ := calls_of_iterates M s1 s' h2 h
      refine ⟨?_, h4⟩
      rw [List.replicate_succ]
      simp only [faultyCalls]
      rw [h1]
      exact h3

theorem complete_calls {I : Newton.EstI X (Fin n)} {lstsq : Newton.Lstsq (Fin n)}
    {outs : Nat → Volt (Fin n) → List Outcome} (s : Autotuner.State (Shared X n) (Volt (Fin n)) (Volt (Fin n)))
    (hs : isComplete (multiHierarchy I lstsq K outs) s = true) : ∀ M,
    faultyCalls I lstsq K outs (List.replicate M .none) s = s
  | 0 => rfl
  | M + 1 => by
    rw [List.replicate_succ]
    simp only [faultyCalls]
    have : (faultyCall I lstsq K outs .none s).1 = s := by
      show (iterate (multiHierarchy I lstsq K outs) (.ok ()) s).1 = s
      have hr : (multiHierarchy I lstsq K outs).ready s.tuners s.expt s.pending = .ok true := rfl
      simp only [iterate, hr, hs, if_true]
    rw [this]
    exact complete_calls s hs M

theorem calls_append {I : Newton.EstI X (Fin n)} {lstsq : Newton.Lstsq (Fin n)}
    {outs : Nat → Volt (Fin n) → List Outcome} : ∀ (fs gs : List (Fault n))
    (s : Autotuner.State (Shared X n) (Volt (Fin n)) (Volt (Fin n))),
    faultyCalls I lstsq K outs (fs ++ gs) s = faultyCalls I lstsq K outs gs (faultyCalls I lstsq K outs fs s)
  | [], _, _ => rfl
  | _ :: fs, gs, _ => calls_append fs gs _

/-- **C144**.  A tuning that is complete within `N` calls of `iterate` if nothing raises is also complete when
exceptions have been caught, as soon as `N` of the calls were without an exception in an evaluator or in `set_gate_voltages`; the voltages of the
gates then meet all set points. -/
theorem tuned_despite_exceptions {P : Plan n m K} {I : Newton.EstI X (Fin n)} {lstsq : Newton.Lstsq (Fin n)}
    {N : Nat} {w : Shared X n} {x : Volt (Fin n)} (h : P.CompletesWithin I lstsq N (fresh w x))
    (fs : List (Fault n)) (hN : N ≤ fs.countP Fault.mild) :
    isComplete (multiHierarchy I lstsq K P.outs) (faultyCalls I lstsq K P.outs fs (fresh w x)) = true ∧
    ∃ q : Vec n, (faultyCalls I lstsq K P.outs fs (fresh w x)).expt = volts q ∧ ∀ i < K, P.Met i q := by
  obtain ⟨M0, hM0, s', h1, h2, q, hq, hmet⟩ := h
  obtain ⟨M, hM, -, hsame, -⟩ := caught_exceptions_are_harmless I lstsq K P.outs fs (fresh w x)
    (fun h => by simp [fresh] at h)
  obtain ⟨h3, h4⟩ := calls_of_iterates M0 _ _ (fun h => absurd rfl h) h1
  obtain ⟨d, rfl⟩ := Nat.exists_eq_add_of_le ((hM0.trans hN).trans hM)
  rw [List.replicate_add, calls_append, h3, complete_calls s' h2] at hsame
  refine ⟨?_, q, ?_, hmet⟩
  · simp only [isComplete, beq_iff_eq] at h2 ⊢
    rw [hsame.index, h2]
  · rw [← hq]
    apply hsame.gates
    rw [hsame.pending]
    by_contra hp
    have := h4 hp
    simp only [isComplete, beq_iff_eq] at h2
    rw [h2] at this
    simp [multiHierarchy] at this

/-! ### Two tuners -/

/-- The device of `samplePlan` is tuned although calls are interrupted. -/
example {eigh : Kalman.Eigh} (heigh : Kalman.EighSpec eigh) {nullspace : Nullspace} (hnull : NullspaceSpec nullspace)
    {lstsq : Newton.Lstsq (Fin 2)} (hl : Newton.LstsqSpec lstsq) :
    ∃ N, ∀ fs : List (Fault 2), N ≤ fs.countP Fault.mild →
      isComplete (multiHierarchy (kalmanI eigh nullspace) lstsq 2 samplePlan.outs)
        (faultyCalls (kalmanI eigh nullspace) lstsq 2 samplePlan.outs fs (fresh sampleShared (volts fun _ => 80))) =
          true := by
  obtain ⟨hP, hpos, ⟨E, hE, hE'⟩, ht, hlim, -⟩ := sampleShared_valid
  obtain ⟨N, hN⟩ := (hierarchy_is_tuned hP hpos heigh hnull hl (fun _ => 80) one_pos hE
    (fun k => ⟨(hE' k).1, .inl (hE' k).2⟩) ht hlim).2
  exact ⟨N, fun fs hfs => (tuned_despite_exceptions hN fs hfs).1⟩

/-- The first evaluator raises during the first two calls: the tuner remembers the voltages, nothing else changes. -/
example (I : Newton.EstI (Est 2) (Fin 2)) (lstsq : Newton.Lstsq (Fin 2)) (x : Volt (Fin 2)) :
    let s := faultyCalls I lstsq 2 samplePlan.outs [.evaluator 0 (.other 7), .evaluator 0 .valueError]
      (fresh sampleShared x)
    (s.tuners.tuners 0).lastVoltage = x ∧ (sampleShared.tuners 0).lastVoltage = (fun _ => none) ∧
      s.index = 0 ∧ s.status = false ∧ s.expt = x := by
  refine ⟨?_, rfl, ?_, ?_, ?_⟩ <;>
    simp [faultyCalls, faultyCall, iterate, faultyHierarchy, multiHierarchy, Fault.outs, Fault.saving, isComplete, fresh,
      isTuned, evaluate, collect, sampleShared, Shared.get, Shared.put]

end Qtune.EndToEnd
