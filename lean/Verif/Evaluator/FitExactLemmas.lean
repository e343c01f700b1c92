import Verif.Evaluator.FitExactSpec
import Verif.Evaluator.FitLemmas
import Mathlib.Analysis.Calculus.LocalExtr.Rolle

/-!
# Lemmas on fits of exact data
-/

namespace Qtune.Evaluator.Fit

open Classical

/-- Two exponential curves that agree at three points are equal. -/
theorem exp_curve_unique {o h T o' h' T' x y z : ℝ} (hT : 0 < T) (hT' : 0 < T') (hh : h ≠ 0) (hxy : x < y) (hyz : y < z)
    (e1 : o + h * Real.exp (-x / T) = o' + h' * Real.exp (-x / T'))
    (e2 : o + h * Real.exp (-y / T) = o' + h' * Real.exp (-y / T'))
    (e3 : o + h * Real.exp (-z / T) = o' + h' * Real.exp (-z / T')) : T = T' ∧ h = h' ∧ o = o' := by
  let F : ℝ → ℝ := fun t => o + h * Real.exp (-t / T) - (o' + h' * Real.exp (-t / T'))
  let F' : ℝ → ℝ := fun t => h * (Real.exp (-t / T) * (-1 / T)) - h' * (Real.exp (-t / T') * (-1 / T'))
  have hF : ∀ t, HasDerivAt F (F' t) t := by
    intro t
    have d1 : HasDerivAt (fun t : ℝ => -t / T) (-1 / T) t := by
      simpa using (hasDerivAt_neg t).div_const T
    have d2 : HasDerivAt (fun t : ℝ => -t / T') (-1 / T') t := by
      simpa using (hasDerivAt_neg t).div_const T'
    exact ((d1.exp.const_mul h).const_add o).sub ((d2.exp.const_mul h').const_add o')
  have hcont : ∀ s, ContinuousOn F s := fun s t _ => (hF t).continuousAt.continuousWithinAt
  obtain ⟨p, hp, hp0⟩ := exists_hasDerivAt_eq_zero (f := F) (f' := F') hxy (hcont _)
    (by simp only [F]; linarith) (fun t _ => hF t)
  obtain ⟨q, hq, hq0⟩ := exists_hasDerivAt_eq_zero (f := F) (f' := F') hyz (hcont _)
    (by simp only [F]; linarith) (fun t _ => hF t)
  have hpq : p < q := hp.2.trans hq.1
  have key : ∀ t, F' t = 0 → h / T * Real.exp (-t / T) = h' / T' * Real.exp (-t / T') := by
    intro t ht
    have : h * (Real.exp (-t / T) * (-1 / T)) - h' * (Real.exp (-t / T') * (-1 / T')) = 0 := ht
    have e : h * (Real.exp (-t / T) * (-1 / T)) = -(h / T * Real.exp (-t / T)) := by ring
    have e' : h' * (Real.exp (-t / T') * (-1 / T')) = -(h' / T' * Real.exp (-t / T')) := by ring
    rw [e, e'] at this
    linarith
  have kp := key p hp0
  have kq := key q hq0
  have hhT : h / T ≠ 0 := div_ne_zero hh hT.ne'
  have hhT' : h' / T' ≠ 0 := by
    intro h0
    rw [h0, zero_mul] at kp
    exact mul_ne_zero hhT (Real.exp_ne_zero _) kp
  have hmul : Real.exp (-p / T) * Real.exp (-q / T') = Real.exp (-p / T') * Real.exp (-q / T) := by
    have h1 : (h / T * Real.exp (-p / T)) * (h' / T' * Real.exp (-q / T')) =
        (h' / T' * Real.exp (-p / T')) * (h / T * Real.exp (-q / T)) := by rw [kp, kq]
    have h2 : (h / T * (h' / T')) * (Real.exp (-p / T) * Real.exp (-q / T')) =
        (h / T * (h' / T')) * (Real.exp (-p / T') * Real.exp (-q / T)) := by linarith
    exact mul_left_cancel₀ (mul_ne_zero hhT hhT') h2
  rw [← Real.exp_add, ← Real.exp_add] at hmul
  have hexp := Real.exp_injective hmul
  have hTT : T = T' := by
    have h1 : (q - p) * (1 / T - 1 / T') = 0 := by
      have : (q - p) * (1 / T - 1 / T') = (-p / T + -q / T') - (-p / T' + -q / T) := by ring
      rw [this, hexp, sub_self]
    have h2 : 1 / T - 1 / T' = 0 := (mul_eq_zero.1 h1).resolve_left (by linarith)
    have h3 : 1 / T = 1 / T' := by linarith
    field_simp at h3
    linarith
  subst hTT
  have hne : Real.exp (-x / T) - Real.exp (-y / T) ≠ 0 := by
    intro h0
    have := Real.exp_injective (sub_eq_zero.1 h0)
    field_simp at this
    linarith
  have hhh : h = h' := by
    have : h * (Real.exp (-x / T) - Real.exp (-y / T)) = h' * (Real.exp (-x / T) - Real.exp (-y / T)) := by
      linarith
    exact mul_right_cancel₀ hne this
  subst hhh
  exact ⟨rfl, rfl, by linarith⟩

theorem present_map_some {α : Type} (l : List α) (f : α → ℝ) : present (l.map fun a => some (f a)) = l.map f := by
  induction l with
  | nil => rfl
  | cons a l ih => simpa [present] using ih

theorem none_notMem_map_some {α : Type} (l : List α) (f : α → ℝ) : (none : Val) ∉ l.map fun a => some (f a) := by
  simp

theorem pyIndex_mem {α : Type} {l : List α} {i : Int} {a : α} (h : pyIndex l i = .ok a) : a ∈ l := by
  unfold pyIndex at h
  split at h
  · split at h
    next x hx => cases h; exact List.mem_of_getElem? hx
    · cases h
  · split at h
    · split at h
      next x hx => cases h; exact List.mem_of_getElem? hx
      · cases h
    · cases h

theorem isSome_of_notMem {l : List Val} (h : none ∉ l) {v : Val} (hv : v ∈ l) : ∃ r, v = some r := by
  cases v with
  | none => exact absurd hv h
  | some r => exact ⟨r, rfl⟩

/-- The mean squared deviation of an exact fit is 0. -/
theorem nanmean_zero {α : Type} (l : List α) (hl : l ≠ []) : nanmean (l.map fun _ => (some 0 : Val)) = some 0 := by
  unfold nanmean
  rw [present_map_some l (fun _ => 0)]
  have : l.map (fun _ => (0 : ℝ)) ≠ [] := by simpa using hl
  rw [if_neg this]
  simp

theorem zip_exact (x : List ℝ) (f : ℝ → ℝ) :
    ((x.zip (x.map fun t => (some (f t) : Val))).map fun xy => Val.sub xy.2 (some (f xy.1))) =
      x.map fun _ => (some 0 : Val) := by
  induction x with
  | nil => rfl
  | cons a l ih => simp only [List.map_cons, List.zip_cons_cons, ih, Val.sub_some, sub_self]

theorem zip_drop (x : List ℝ) (y : List Val) (m : Nat) : (x.zip y).drop m = (x.drop m).zip (y.drop m) := by
  induction m generalizing x y with
  | zero => rfl
  | succ m ih =>
    cases x with
    | nil => simp
    | cons a x =>
      cases y with
      | nil => simp
      | cons b y => simpa using ih x y

end Qtune.Evaluator.Fit
