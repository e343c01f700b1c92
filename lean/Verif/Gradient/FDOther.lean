import Verif.Gradient.FD

/-! # C194: other gates do not matter for the requested measurements -/

namespace Qtune.Gradient

variable {n : Nat}

/-- **C194**: The request of a finite difference estimator for some of its gates depends on the voltages of these gates only: an estimator for which all other gates have been
at other voltages, before, at the current position and in each of the stored measurements, requests the same. -/
theorem require_other_gates (orth : Orth n) (gates : List (Fin n)) (e e' : FD n) (c c' : Vec n) (hp : e.pos = some c) (hp' : e'.pos = some c')
    (hc : ∀ i ∈ gates, c i = c' i) (heps : ∀ i ∈ gates, e.eps i = e'.eps i) (hs : e.symmetric = e'.symmetric) (he : e.estimate = none) (he' : e'.estimate = none)
    (hm : List.Forall₂ (fun m m' => ∀ i ∈ gates, m.1 i = m'.1 i) e.stored e'.stored) :
    (e.require orth gates).2 = (e'.require orth gates).2 := by
  have hst : (e.stored.map fun m => restrict gates m.1) = e'.stored.map fun m => restrict gates m.1 := by
    clear hp hp' heps hs he he'
    generalize e.stored = l at hm ⊢
    generalize e'.stored = l' at hm ⊢
    induction hm with
    | nil => rfl
    | cons h _ ih =>
      simp only [List.map_cons, List.cons.injEq]
      refine ⟨funext fun i => ?_, ih⟩
      simp only [restrict]
      split
      · exact h i (by assumption)
      · rfl
  have hreq : ∀ next, request gates c e.eps next = request gates c' e'.eps next := by
    intro next
    cases next <;>
    · funext i
      simp only [request]
      split
      · rename_i hi
        simp only [hc i hi, heps i hi]
      · rfl
  unfold FD.require
  rw [hp, hp', he, he', hst, hs]
  dsimp only
  cases hN : nextPoint orth gates e'.symmetric (e'.stored.map fun m => restrict gates m.1) with
  | error err => rfl
  | ok next => simp only [hreq]

/-- **C194**: a request is a position of exactly the given gates. -/
theorem require_gates (orth : Orth n) (gates : List (Fin n)) (e : FD n) (p : Partial n) (h : (e.require orth gates).2 = .ok (some p)) (i : Fin n) :
    (p i).isSome = true ↔ i ∈ gates := by
  have hreq : ∀ c eps next, (request gates c eps next i).isSome = true ↔ i ∈ gates := by
    intro c eps next
    cases next <;> simp only [request] <;> split <;> simp_all
  unfold FD.require at h
  split at h
  · cases h
  · split at h
    · simp at h
    · split at h
      · cases h
      · simp only [Except.ok.injEq, Option.some.injEq] at h
        rw [← h]
        exact hreq _ _ _

/-- Two estimators of two gates, of which one gate is used and the other was moved. -/
example (orth : Orth 2) : (FD.require orth [0] ⟨some ![1, 5], ![1, 1], false, none, [(![1, 5], some 3, some 1)], []⟩).2 =
    (FD.require orth [0] ⟨some ![1, 7], ![1, 2], false, none, [(![1, 6], some 3, some 1)], []⟩).2 :=
  require_other_gates orth [0] _ _ _ _ rfl rfl (by simp) (by simp) rfl rfl rfl (by simp)

end Qtune.Gradient
