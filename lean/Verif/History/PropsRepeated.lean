import Verif.History.Model
import Mathlib.Data.List.Basic
import Mathlib.Data.List.Lookmap

/-! # C61: evaluations that are repeated at the same voltages -/

namespace Qtune.History

variable {γ κ ρ π : Type}

theorem lookup_append_none [DecidableEq κ] {l l' : List (κ × ρ)} {c : κ} (h : l.lookup c = none) : (l ++ l').lookup c = l'.lookup c := by
  rw [List.lookup_append, h]; rfl

theorem lookup_columns_none [DecidableEq κ] {tuners : List (List (κ × ρ))} {c : κ} (h : ∀ t ∈ tuners, t.lookup c = none) : (columns tuners).lookup c = none := by
  rw [List.lookup_eq_none_iff]
  intro q hq
  unfold columns at hq
  obtain ⟨t, ht, hqt⟩ := List.mem_flatten.1 hq
  exact List.lookup_eq_none_iff.1 (h t (List.mem_reverse.1 ht)) q hqt

theorem mem_slice_index {β : Type} {l : List β} {i j : Nat} {x : β} (h : x ∈ slice l i j) : ∃ m : Nat, i ≤ m ∧ l[m]? = some x := by
  unfold slice at h
  obtain ⟨n, hn⟩ := List.mem_iff_getElem?.1 h
  rw [List.getElem?_drop] at hn
  refine ⟨i + n, by omega, ?_⟩
  rw [List.getElem?_take] at hn
  split at hn
  · exact hn
  · cases hn

/-- **C61** is false for every history: if the voltages are those of the last row, and the row was written when the tuner number `k` was the current one, then the
values of the tuners before `k` are not written, whatever they are: the row keeps the values of their earlier evaluation in each column that the tuners from `k` on do not
have. -/
theorem repeated_evaluation_refuted [DecidableEq γ] [DecidableEq κ] (h : Hist γ κ ρ π) (a : View γ κ ρ) (path : π) (r : Row γ κ ρ) (k : Nat)
    (hlast : h.rows.getLast? = some r) (hv : a.voltages = r.voltages) (hk : r.tunerIndex = some k) (c : κ)
    (hc : ∀ j : Nat, k ≤ j → ∀ cells, a.tuners[j]? = some cells → cells.lookup c = none) :
    ∃ h' r', append h a path = .ok h' ∧ h'.rows.getLast? = some r' ∧ h'.rows.length = h.rows.length ∧ r'.cells.lookup c = r.cells.lookup c := by
  have hne : h.rows ≠ [] := by rintro e; rw [e] at hlast; cases hlast
  have hlen : h.rows.dropLast.length + 1 = h.rows.length := by
    rw [List.length_dropLast]
    have := List.length_pos_iff.2 hne
    omega
  have hempty : h.rows.isEmpty = false := by simpa using hne
  unfold append
  simp only [hempty, Bool.false_eq_true, if_false, hlast, hv, if_true]
  unfold stay
  rw [hk]
  by_cases he : a.evaluated = 0
  · simp only [he, if_true]
    exact ⟨_, _, rfl, List.getLast?_concat, by rw [List.length_append]; exact hlen, rfl⟩
  · simp only [he, if_false]
    refine ⟨_, _, rfl, List.getLast?_concat, by rw [List.length_append]; exact hlen, ?_⟩
    show (columns (slice a.tuners k a.evaluated) ++ r.cells).lookup c = _
    refine lookup_append_none (lookup_columns_none fun t ht => ?_)
    obtain ⟨m, hm, hmt⟩ := mem_slice_index ht
    exact hc m hm t hmt

/-- The first tuner is evaluated again at the same voltages: the row keeps 1 although 2 was measured. -/
example : ∃ h' r', append (⟨[⟨0, [("p", 1)], some 1⟩], ["a"]⟩ : Hist Nat String Nat String) ⟨0, [[("p", 2)], [("q", 5)]], 1, false, false⟩ "b" = .ok h' ∧
    h'.rows.getLast? = some r' ∧ h'.rows.length = 1 ∧ r'.cells.lookup "p" = some 1 :=
  repeated_evaluation_refuted _ _ _ ⟨0, [("p", 1)], some 1⟩ 1 rfl rfl rfl "p" (by
    intro j hj cells hcells
    match j, hj with
    | 1, _ =>
      simp only [List.getElem?_cons_succ, List.getElem?_cons_zero, Option.some.injEq] at hcells
      subst hcells
      simp
    | j + 2, _ => simp at hcells)

end Qtune.History
