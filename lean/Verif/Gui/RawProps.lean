import Verif.Gui.RawModel

/-!
# What the windows with the raw data show
-/

namespace Qtune.Gui.Raw

open Qtune.Gui.Reload

variable {δ : Type}

/-- Typing the number `k` and clicking the button of evaluator `e`. -/
def look (k : Int) (e : String) (data : List (String → Option δ)) (w : Window δ) : Window δ :=
  click e data (edit (some k) data.length w)

theorem clamp_of_lt {k n : Nat} (h : k < n) : clampNumber (some (k : Int)) n = k := by
  unfold clampNumber
  simp only [Option.getD_some]
  rw [if_neg (by omega), if_neg (by omega)]

/-- **C145** is false: if the number `k + 1` is shown, the picture is the one of row `k`, and for the number 0 it is the one of
the last row.  So the window shows something else than the tune run whose number is displayed whenever the row before (the last row
for the number 0) has other data. -/
theorem raw_window_refuted (data : List (String → Option δ)) (w : Window δ) (e : String) (k j : Nat)
    (r r' : String → Option δ) (hk : data[k]? = some r) (hj : j = if k = 0 then data.length - 1 else k - 1)
    (hr' : data[j]? = some r') (hne : r e ≠ r' e) :
    (look k e data w).shown = k ∧ (look k e data w).picture = some (e, r' e) ∧
      (look k e data w).picture ≠ some (e, r e) := by
  have hlt : k < data.length := (List.getElem?_eq_some_iff.1 hk).1
  have hget : pyGet data ((k : Int) - 1) = some r' := by
    unfold pyGet
    by_cases h0 : k = 0
    · subst h0
      rw [if_pos rfl] at hj
      rw [if_neg (by omega), if_pos (by omega)]
      have : (((0 : Nat) : Int) - 1 + data.length).toNat = j := by omega
      rw [this, hr']
    · rw [if_neg h0] at hj
      rw [if_pos (by omega)]
      have : ((k : Int) - 1).toNat = j := by omega
      rw [this, hr']
  have key : look k e data w = ⟨k, k, some (e, r' e)⟩ := by
    simp only [look, click, edit, clamp_of_lt hlt, hget]
  rw [key]
  exact ⟨rfl, rfl, fun h => hne (by simpa using h.symm)⟩

/-- **C145**, part.  The picture is always recorded data of the clicked evaluator; the data of every row can be shown, and the window of a
history with a single row shows the right data.  Missing: the row is not the one with the displayed number. -/
theorem raw_window_partial (data : List (String → Option δ)) (w : Window δ) (e : String) :
    (∀ k : Int, data ≠ [] → ∃ r ∈ data, (look k e data w).picture = some (e, r e)) ∧
    (∀ (j : Nat) (r : String → Option δ), data[j]? = some r → ∃ k : Nat, k < data.length ∧ (look k e data w).picture = some (e, r e)) ∧
    (∀ r (k : Int), data = [r] → (look k e data w).shown = 0 ∧ (look k e data w).picture = some (e, r e)) := by
  refine ⟨fun k hne => ?_, fun j r hj => ?_, fun r k h => ?_⟩
  · have hpos : 0 < data.length := List.length_pos_iff.2 hne
    have hb : 0 ≤ clampNumber (some k) data.length ∧ clampNumber (some k) data.length < data.length := by
      unfold clampNumber
      simp only [Option.getD_some]
      split
      · omega
      · split <;> omega
    obtain ⟨r, hr⟩ : ∃ r, pyGet data (clampNumber (some k) data.length - 1) = some r := by
      unfold pyGet
      split
      · exact ⟨_, List.getElem?_eq_getElem (by omega)⟩
      · rw [if_pos (by omega)]
        exact ⟨_, List.getElem?_eq_getElem (by omega)⟩
    refine ⟨r, ?_, by simp only [look, click, edit, hr]⟩
    unfold pyGet at hr
    split at hr
    · exact List.mem_of_getElem? hr
    · split at hr
      · exact List.mem_of_getElem? hr
      · cases hr
  · have hlt : j < data.length := (List.getElem?_eq_some_iff.1 hj).1
    by_cases hl : j + 1 < data.length
    · refine ⟨j + 1, hl, ?_⟩
      have hget : pyGet data (((j + 1 : Nat) : Int) - 1) = some r := by
        unfold pyGet
        rw [if_pos (by omega)]
        have : (((j + 1 : Nat) : Int) - 1).toNat = j := by omega
        rw [this, hj]
      simp only [look, click, edit, clamp_of_lt hl, hget]
    · refine ⟨0, by omega, ?_⟩
      have hget : pyGet data (((0 : Nat) : Int) - 1) = some r := by
        unfold pyGet
        rw [if_neg (by omega), if_pos (by omega)]
        have : (((0 : Nat) : Int) - 1 + data.length).toNat = j := by omega
        rw [this, hj]
      have h0 : (0 : Nat) < data.length := by omega
      simp only [look, click, edit, clamp_of_lt h0, hget]
  · subst h
    have hc : clampNumber (some k) 1 = 0 := by
      unfold clampNumber
      simp only [Option.getD_some]
      split
      · rfl
      · split
        · rfl
        · push_cast at *; omega
    simp [look, click, edit, hc, pyGet]

/-- The reload window and the raw data window act on different rows when the same number is typed into both. -/
theorem windows_disagree {V : Type} (data : List (String → Option δ)) (rows : List V) (h : data.length = rows.length)
    (w : Window δ) (e : String) (k : Nat) (h0 : 0 < k) (hk : k < rows.length) :
    pyGet rows (clampNumber (some (k : Int)) rows.length) = rows[k]? ∧
    (look k e data w).picture = (data[k - 1]?).map fun r => (e, r e) := by
  constructor
  · rw [clamp_of_lt hk]
    simp [pyGet]
  · have hk' : k < data.length := by omega
    have hget : pyGet data ((k : Int) - 1) = data[k - 1]? := by
      unfold pyGet
      rw [if_pos (by omega)]
      have : ((k : Int) - 1).toNat = k - 1 := by omega
      rw [this]
    have hx : data[k - 1]? = some data[k - 1] := List.getElem?_eq_getElem (by omega)
    simp only [look, click, edit, clamp_of_lt hk', hget, hx, Option.map_some]

/-- Three rows: for the number 1 the picture of row 0 appears, for 0 the one of row 2; for 2 the one of row 1. -/
example : let data : List (String → Option Nat) := [fun _ => some 10, fun _ => some 11, fun _ => some 12]
    ((look 1 "scan" data init).picture, (look 0 "scan" data init).picture, (look 2 "scan" data init).picture,
      (look 7 "scan" data init).picture) =
    (some ("scan", some 10), some ("scan", some 12), some ("scan", some 11), some ("scan", some 11)) := by
  simp [look, click, edit, clampNumber, pyGet]

end Qtune.Gui.Raw
