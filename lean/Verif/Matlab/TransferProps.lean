import Mathlib.Tactic.Ring
import Mathlib.Tactic.Linarith
import Mathlib.Data.Nat.Init
import Verif.Matlab.TransferSpec

/-!
# C73: arrays arrive in MATLAB with the same rows and columns
-/

namespace Qtune.Matlab

theorem mem_conversions (dtype : String) : dtype ∈ conversions ↔ Transferable dtype := by
  simp [conversions, Transferable]

theorem length_flatten_const {α} {c : ℕ} {rows : List (List α)} (h : ∀ r ∈ rows, r.length = c) :
    rows.flatten.length = rows.length * c := by
  induction rows with
  | nil => simp
  | cons r t ih =>
    simp only [List.flatten_cons, List.length_append, List.length_cons]
    rw [h r (by simp), ih fun r hr => h r (by simp [hr])]
    ring

theorem getElem?_flatten_const {α} {c : ℕ} {rows : List (List α)}
    (h : ∀ r ∈ rows, r.length = c) (i j : ℕ) (hj : j < c) :
    rows.flatten[i * c + j]? = (rows[i]?).bind (fun r => r[j]?) := by
  induction rows generalizing i with
  | nil => simp
  | cons r t ih =>
    have hr : r.length = c := h r (by simp)
    cases i with
    | zero =>
      simp only [List.flatten_cons, Nat.zero_mul, Nat.zero_add, List.getElem?_cons_zero,
        Option.bind_some]
      rw [List.getElem?_append_left (by omega)]
    | succ i =>
      simp only [List.flatten_cons, List.getElem?_cons_succ]
      rw [List.getElem?_append_right (by rw [hr]; nlinarith), hr,
        show (i + 1) * c + j - c = i * c + j by rw [Nat.add_mul]; omega]
      exact ih (fun r hr => h r (by simp [hr])) i

theorem transposed_entry {α} [Inhabited α] (a b : ℕ) (data : List α)
    (hlen : data.length = a * b) (i j : ℕ) (hi : i < b) (hj : j < a) :
    MArray.entry ⟨[b, a], (List.range (a * b)).map fun k : ℕ =>
      data.getD (k / b + (k % b) * a) default⟩ i j = data[i * a + j]? := by
  have hb : 0 < b := by omega
  have hlt : i + j * b < a * b := by
    have : (j + 1) * b ≤ a * b := Nat.mul_le_mul_right b hj
    rw [Nat.add_mul] at this
    omega
  have hlt' : i * a + j < data.length := by
    rw [hlen]
    have : (i + 1) * a ≤ b * a := Nat.mul_le_mul_right a hi
    rw [Nat.add_mul, Nat.mul_comm b a] at this
    omega
  unfold MArray.entry
  simp only [if_pos (And.intro hi hj)]
  rw [List.getElem?_map, List.getElem?_range hlt]
  have h1 : (i + j * b) / b = j := by
    rw [Nat.add_mul_div_right _ _ hb, Nat.div_eq_of_lt hi, Nat.zero_add]
  have h2 : (i + j * b) % b = i := by
    rw [Nat.add_mul_mod_self_right, Nat.mod_eq_of_lt hi]
  simp only [Option.map_some, h1, h2]
  rw [show j + i * a = i * a + j by omega, List.getD_eq_getElem _ _ hlt',
    List.getElem?_eq_getElem hlt']

/-- C73 (two dimensions): an array with `r` rows of `c` entries becomes an `r × c` MATLAB
array with the same entry in every row and column. -/
theorem transfer_2d {α} [Inhabited α] (dtype : String) (hd : Transferable dtype) (c : ℕ)
    (rows : List (List α)) (h : ∀ r ∈ rows, r.length = c) :
    ∃ m, toMatlabArray (ofRows dtype c rows) = .ok m ∧ m.dims = [rows.length, c] ∧
      ∀ i j : ℕ, i < rows.length → j < c →
        m.entry i j = (rows[i]?).bind (fun r => r[j]?) := by
  have hlen := length_flatten_const h
  refine ⟨⟨[rows.length, c], (List.range (c * rows.length)).map fun k : ℕ =>
    rows.flatten.getD (k / rows.length + (k % rows.length) * c) default⟩, ?_, rfl, ?_⟩
  · unfold toMatlabArray ofRows
    rw [if_pos ((mem_conversions _).2 hd)]
    have hp : [c, rows.length].prod = rows.flatten.length := by
      rw [hlen]; simp [Nat.mul_comm]
    simp only [List.reverse_cons, List.reverse_nil, List.nil_append, List.cons_append,
      List.length_cons, List.length_nil, reshape]
    rw [if_neg (show ¬ 0 + 1 + 1 = 1 by decide),
      if_neg (show ¬ [c, rows.length].length < 2 by simp), if_pos hp]
    rfl
  · intro i j hi hj
    have := transposed_entry c rows.length rows.flatten (by rw [hlen]; ring) i j hi hj
    rw [getElem?_flatten_const h i j hj] at this
    exact this

/-- A 2 × 3 array and the entry in its second row and first column. -/
example : (∀ r ∈ [[1, 2, 3], [4, 5, 6]], r.length = 3) ∧
    (toMatlabArray (ofRows "float64" 3 [[1, 2, 3], [4, 5, 6]])).map (fun m => m.data) =
      .ok [1, 4, 2, 5, 3, 6] := ⟨by decide, rfl⟩

/-- C73 (one dimension): an array with `n` entries becomes a `1 × n` row vector with the
same entries. -/
theorem transfer_1d {α} [Inhabited α] (dtype : String) (hd : Transferable dtype) (v : List α) :
    ∃ m, toMatlabArray ⟨dtype, [v.length], v⟩ = .ok m ∧ m.dims = [1, v.length] ∧
      ∀ j : ℕ, j < v.length → m.entry 0 j = v[j]? := by
  refine ⟨⟨[1, v.length], (List.range (v.length * 1)).map fun k : ℕ =>
    v.getD (k / 1 + (k % 1) * v.length) default⟩, ?_, rfl, ?_⟩
  · unfold toMatlabArray
    rw [if_pos ((mem_conversions _).2 hd)]
    have hp : [v.length, 1].prod = v.length := by simp
    simp only [List.reverse_cons, List.reverse_nil, List.nil_append, List.cons_append,
      List.length_cons, List.length_nil, reshape, if_true]
    rw [if_neg (show ¬ 2 < 2 by decide), if_pos hp]
    rfl
  · intro j hj
    have := transposed_entry v.length 1 v (by simp) 0 j (by omega) hj
    rw [Nat.zero_mul, Nat.zero_add] at this
    exact this

example : (toMatlabArray (⟨"float64", [2], [7, 8]⟩ : NpArray ℕ)).map (fun m => m.dims) =
    .ok [1, 2] := rfl

/-- The cases that are refused: scalars (shape `()`), arrays with three or more dimensions
whose first dimension is not 1, and dtypes that are not in the table (so every array of
default integers, `int64`). -/
theorem transfer_refused {α} [Inhabited α] (a : NpArray α) :
    (¬ Transferable a.dtype → toMatlabArray a = .error (.other 3)) ∧
    (Transferable a.dtype → a.shape = [] → toMatlabArray a = .error (.other 2)) ∧
    (∀ k rest, Transferable a.dtype → a.shape = k :: rest → 2 ≤ rest.length → k ≠ 1 →
      toMatlabArray a = .error (.other 2)) := by
  refine ⟨?_, ?_, ?_⟩
  · intro h
    unfold toMatlabArray
    rw [if_neg (mt (mem_conversions _).1 h)]
  · intro hd hs
    unfold toMatlabArray
    rw [if_pos ((mem_conversions _).2 hd), hs]
    rfl
  · intro k rest hd hs hr hk
    unfold toMatlabArray
    rw [if_pos ((mem_conversions _).2 hd), hs]
    obtain ⟨x, y, t, ht⟩ : ∃ x y t, rest.reverse = x :: y :: t := by
      have hl : 2 ≤ rest.reverse.length := by simpa using hr
      match hrev : rest.reverse, hl with
      | x :: y :: t, _ => exact ⟨x, y, t, rfl⟩
    have hrev : (k :: rest).reverse = x :: y :: (t ++ [k]) := by
      rw [List.reverse_cons, ht]; rfl
    simp only [hrev, List.length_cons, reshape]
    rw [if_neg (show ¬ (t ++ [k]).length + 1 + 1 = 1 by omega)]
    rw [if_neg (show ¬ (x :: y :: (t ++ [k])).length < 2 by simp)]
    have hdrop : dropOnes (x :: y :: (t ++ [k])) = x :: y :: (t ++ [k]) := by
      unfold dropOnes
      simp [hk]
    rw [hdrop]
    split
    · rename_i e he
      split at he
      · cases he
      · cases he; rfl
    · rename_i m hm
      split at hm
      · cases hm
        unfold transpose
        have : ∀ p q, x :: y :: (t ++ [k]) ≠ [p, q] := by
          intro p q h; simp at h
        split
        · rename_i p q h
          exact absurd h (this p q)
        · rfl
      · cases hm

example : ¬ Transferable "int64" ∧ Transferable "float64" ∧
    toMatlabArray (⟨"int64", [2], [7, 8]⟩ : NpArray ℕ) = .error (.other 3) ∧
    toMatlabArray (⟨"float64", [2, 1, 1], [7, 8]⟩ : NpArray ℕ) = .error (.other 2) :=
  ⟨by simp [Transferable], by simp [Transferable], rfl, rfl⟩

end Qtune.Matlab
