import Verif.Gradient.FD
import Verif.Gradient.UtilProps

/-! # C38: finite differences from measurements that are not numbers -/

namespace Qtune.Gradient

variable {n : Nat}

theorem allReal_isSome : ∀ l : List Val, (allReal l).isSome ↔ ∀ x ∈ l, x.isSome
  | [] => by simp [allReal]
  | none :: l => by simp [allReal]
  | some x :: l => by
    have := allReal_isSome l
    simp only [allReal, Option.isSome_map, this, List.mem_cons, forall_eq_or_imp, Option.isSome_some, true_and]

/-- If one of the measured values is NaN then no entry of the gradient is a number, and if one of the variances is NaN then there is no
covariance; otherwise both are numbers. -/
theorem gradient_of_nan (ms : List (Vec n × Val × Val)) (g : Fin n → Val) (C : Option (Matrix (Fin n) (Fin n) ℝ)) (h : gradientOf ms = .ok (g, C)) :
    ((∃ m ∈ ms, m.2.1 = none) → ∀ i, g i = none) ∧ ((∀ m ∈ ms, m.2.1 ≠ none) → ∀ i, g i ≠ none) ∧
      (C = none ↔ ∃ m ∈ ms, m.2.2 = none) := by
  have hv := allReal_isSome (ms.map fun m => m.2.1)
  have hs := allReal_isSome (ms.map fun m => m.2.2)
  simp only [gradientOf] at h
  split at h
  · simp at h
  · simp only [Except.ok.injEq, Prod.mk.injEq] at h
    obtain ⟨h1, h2⟩ := h
    refine ⟨fun ⟨m, hm, hn⟩ i => ?_, fun hall i => ?_, ?_⟩
    · rw [if_neg (fun hc => by
        have := hv.1 hc m.2.1 (List.mem_map.2 ⟨m, hm, rfl⟩); rw [hn] at this; simp at this)] at h1
      rw [← h1]
    · rw [if_pos (hv.2 fun x hx => by
        obtain ⟨m, hm, rfl⟩ := List.mem_map.1 hx
        exact Option.isSome_iff_ne_none.2 (hall m hm))] at h1
      rw [← h1]; simp
    · constructor
      · intro hC
        by_contra hcon
        rw [if_pos (hs.2 fun x hx => by
          obtain ⟨m, hm, rfl⟩ := List.mem_map.1 hx
          exact Option.isSome_iff_ne_none.2 fun hn => hcon ⟨m, hm, hn⟩)] at h2
        rw [hC] at h2; simp at h2
      · rintro ⟨m, hm, hn⟩
        rw [if_neg (fun hc => by
          have := hs.1 hc m.2.2 (List.mem_map.2 ⟨m, hm, rfl⟩); rw [hn] at this; simp at this)] at h2
        exact h2.symm

/-- An estimate that a finite difference estimator makes in an update has been made from the measurements it has stored: if a value among them is NaN,
no entry of the gradient is a number. -/
theorem estimate_from_nan (p : Vec n) (value variance : Val) (e e' : FD n) (g : Fin n → Val) (C : Option (Matrix (Fin n) (Fin n) ℝ))
    (h : e.update p value variance = (e', .ok ())) (h0 : e.estimate = none) (h1 : e'.estimate = some (g, C)) :
    ((∃ m ∈ e'.stored, m.2.1 = none) → ∀ i, g i = none) ∧ ((∀ m ∈ e'.stored, m.2.1 ≠ none) → ∀ i, g i ≠ none) ∧
      (C = none ↔ ∃ m ∈ e'.stored, m.2.2 = none) := by
  simp only [FD.update] at h
  split at h
  · simp only [Prod.mk.injEq, and_true] at h
    subst h
    rw [h0] at h1; simp at h1
  · rw [h0] at h
    simp only at h
    split at h
    · split at h
      · simp at h
      · rename_i r hr
        simp only [Prod.mk.injEq, and_true] at h
        subst h
        simp only [Option.some.injEq] at h1
        subst h1
        exact gradient_of_nan _ g C hr
    · split at h
      · split at h
        · simp at h
        · rename_i r hr
          simp only [Prod.mk.injEq, and_true] at h
          subst h
          simp only [Option.some.injEq] at h1
          subst h1
          have := gradient_of_nan _ g C hr
          simp only [List.mem_reverse] at this
          exact this
      · simp only [Prod.mk.injEq, and_true] at h
        subst h
        simp at h1

/-- Two points, the value at the second could not be measured. -/
example : ∃ C, gradientOf [((fun _ => 0 : Vec 1), some 1, some 1), (fun _ => 1, none, some 1)] = .ok (fun _ => none, C) := by
  obtain ⟨C, hC⟩ := gradient_exact_base (![fun _ => 0, fun _ => 1] : Fin 2 → Vec 1) ![1, 1] (fun _ => 0) (fun _ => 0) ⟨0, fun _ => by simp⟩ (by
    rw [← det_ne_zero_iff]; simp)
  have h : calculateGradient [(fun _ => 0 : Vec 1), fun _ => 1] [0, 0] [1, 1] = .ok (fun _ => 0, C) := by simpa [List.ofFn_succ] using hC
  exact ⟨some C, by simp [gradientOf, allReal, h]⟩

end Qtune.Gradient
