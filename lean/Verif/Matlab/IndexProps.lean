import Mathlib.Tactic.Linarith
import Mathlib.Tactic.Ring
import Mathlib.Tactic.Push
import Mathlib.Data.Int.Init
import Verif.Matlab.IndexSpec

/-!
# C72: translation of indices to MATLAB
-/

namespace Qtune.Matlab

theorem mem_colon_pos {a s b p : ℤ} (hs : 0 < s) (hp : p ∈ colon a s b) : a ≤ p ∧ p ≤ b := by
  unfold colon at hp
  rw [if_pos hs] at hp
  obtain ⟨k, hk, rfl⟩ := List.mem_map.1 hp
  rw [List.mem_range] at hk
  split at hk
  · rename_i hab
    have h1 : (k : ℤ) < (b - a) / s + 1 := by omega
    have h2 : (k : ℤ) * s ≤ b - a := by
      rw [← Int.le_ediv_iff_mul_le hs]; omega
    have h3 : 0 ≤ (k : ℤ) * s := Int.mul_nonneg (by omega) hs.le
    constructor <;> linarith
  · simp at hk

theorem mem_colon_neg {a s b p : ℤ} (hs : s < 0) (hp : p ∈ colon a s b) : b ≤ p ∧ p ≤ a := by
  unfold colon at hp
  rw [if_neg (by omega), if_pos hs] at hp
  obtain ⟨k, hk, rfl⟩ := List.mem_map.1 hp
  rw [List.mem_range] at hk
  split at hk
  · rename_i hab
    have h1 : (k : ℤ) < (a - b) / (-s) + 1 := by omega
    have h2 : (k : ℤ) * (-s) ≤ a - b := by
      rw [← Int.le_ediv_iff_mul_le (by omega)]; omega
    have h3 : 0 ≤ (k : ℤ) * (-s) := Int.mul_nonneg (by omega) (by omega)
    constructor <;> linarith
  · simp at hk

/-- The colon operator includes its end, `range` does not. -/
theorem colon_pyRange_pos {a b s : ℤ} (hs : 0 < s) :
    colon (a + 1) s b = (pyRange a b s).map fun p => p + 1 := by
  unfold colon pyRange
  rw [if_pos hs, if_pos hs, List.map_map]
  by_cases h : a < b
  · rw [if_pos h, if_pos (by omega), show b - (a + 1) = b - a - 1 by omega]
    exact List.map_congr_left fun k _ => by simp; ring
  · rw [if_neg h, if_neg (by omega)]; rfl

theorem colon_pyRange_neg {a b s : ℤ} (hs : s < 0) :
    colon (a + 1) s (b + 2) = (pyRange a b s).map fun p => p + 1 := by
  unfold colon pyRange
  have hs' : ¬ 0 < s := by omega
  rw [if_neg hs', if_pos hs, if_neg hs', if_pos hs, List.map_map]
  by_cases h : b < a
  · rw [if_pos h, if_pos (show b + 2 ≤ a + 1 by omega), show a + 1 - (b + 2) = a - b - 1 by omega]
    exact List.map_congr_left fun k _ => by simp; ring
  · rw [if_neg h, if_neg (show ¬ b + 2 ≤ a + 1 by omega)]; rfl

theorem colon_empty {s b : ℤ} (hs : 0 < s) {a : ℤ} (h : b < a) : colon a s b = [] := by
  unfold colon
  rw [if_pos hs, if_neg (by omega)]; rfl

theorem transformInt_nonneg {i : ℤ} (h : 0 ≤ i) : transformInt i = .scalar (.lit (i + 1)) := by
  unfold transformInt; rw [if_neg (by omega)]

theorem mPositions_lit (n : ℕ) (k : ℤ) : mPositions n (.scalar (.lit k)) =
    if 1 ≤ k ∧ k ≤ n then .ok [k] else .error (.other 2) := by
  unfold mPositions
  simp [mBound]

theorem mPositions_range (n : ℕ) (a : MBound) (s : ℤ) (b : MBound) :
    mPositions n (.range a s b) =
      if ∀ p : ℤ, p ∈ colon (mBound n a) s (mBound n b) → 1 ≤ p ∧ p ≤ (n : ℤ)
      then .ok (colon (mBound n a) s (mBound n b)) else .error (.other 2) := rfl

/-- C72, partial: integers that count from the front and slices from one end are translated
to MATLAB indices that denote the same elements.  Missing, because it is false
(`index_refuted`): negative integers, slices with a start, slices that stop behind the end
of the dimension and slices that run backwards to a given end. -/
theorem index_partial (n : ℕ) (i : PyIdx) (h : Supported n i) : Faithful n i := by
  cases i with
  | int i =>
    have h : 0 ≤ i := h
    show SameElements (pyInt n i) (mPositions n (transformInt i))
    rw [transformInt_nonneg h]
    unfold pyInt
    by_cases hi : i < n
    · rw [if_pos ⟨h, hi⟩]
      refine .inr ⟨[i], rfl, ?_⟩
      rw [mPositions_lit, if_pos ⟨by omega, by omega⟩]; rfl
    · rw [if_neg (by omega), if_neg (by omega)]
      refine .inl ⟨.indexError, .other 2, rfl, ?_⟩
      rw [mPositions_lit, if_neg (by omega)]
  | slice s =>
    obtain ⟨start, stop, step⟩ := s
    obtain ⟨hst, h⟩ := h
    dsimp only at hst h
    subst hst
    show SameElements (pySlice n ⟨none, stop, step⟩)
      ((transformSlice ⟨none, stop, step⟩).bind (mPositions n))
    unfold pySlice transformSlice
    dsimp only
    generalize step.getD 1 = st at h
    rcases h with ⟨hs, hk⟩ | ⟨hs, rfl⟩
    · simp only [if_pos hs, if_neg (show st ≠ 0 by omega), Option.map_none, Option.getD_none]
      have key : ∀ (B : MBound) (e : ℤ), mBound n B ≤ n → e ≤ n →
          colon 1 st (mBound n B) = (pyRange 0 e st).map (fun p => p + 1) →
          SameElements (.ok (pyRange 0 e st)) (mPositions n (.range (.lit 1) st B)) := by
        intro B e hB he hc
        refine .inr ⟨_, rfl, ?_⟩
        rw [mPositions_range, if_pos]
        · exact congrArg Except.ok hc
        · intro p hp
          have := mem_colon_pos hs hp
          have h1 : mBound n (.lit 1) = 1 := rfl
          omega
      cases stop with
      | none =>
        exact key .fin n le_rfl le_rfl (colon_pyRange_pos (a := 0) hs)
      | some k =>
        have hkn := hk k rfl
        simp only [Option.map_some, Option.getD_some]
        by_cases hneg : k < 0
        · simp only [if_pos hneg]
          have hc : clip n 0 n k = max (k + n) 0 := if_pos hneg
          rw [hc]
          refine key (.finMinus k.natAbs) _ (by simp [mBound]) (by omega) ?_
          have hB : mBound n (.finMinus k.natAbs) = k + n := by
            show (n : ℤ) - (k.natAbs : ℤ) = k + n
            omega
          rw [hB]
          by_cases hpos : 0 ≤ k + n
          · rw [max_eq_left hpos]; exact colon_pyRange_pos (a := 0) hs
          · rw [max_eq_right (by omega), colon_empty hs (by omega)]
            unfold pyRange
            simp [hs]
        · simp only [if_neg hneg]
          have hc : clip n 0 n k = min k n := if_neg hneg
          rw [hc, min_eq_left hkn]
          exact key (.lit k) k hkn hkn (colon_pyRange_pos (a := 0) hs)
    · have hs' : ¬ 0 < st := by omega
      simp only [if_neg hs', if_neg (show st ≠ 0 by omega), Option.map_none, Option.getD_none]
      refine .inr ⟨_, rfl, ?_⟩
      show mPositions n (.range .fin st (.lit 1)) = _
      rw [mPositions_range, if_pos]
      · have := colon_pyRange_neg (a := (n : ℤ) - 1) (b := -1) hs
        simp only [Int.sub_add_cancel] at this
        exact congrArg Except.ok this
      · intro p hp
        have := mem_colon_neg hs hp
        have h1 : mBound n (.lit 1) = 1 := rfl
        have h2 : mBound n .fin = n := rfl
        omega

/-- The hypothesis of `index_partial` is met by `a[2]` and by `a[:-1:2]`, and its conclusion
is not empty. -/
example : Supported 5 (.int 2) ∧ Supported 5 (.slice ⟨none, some (-1), some 2⟩) ∧
    pyPositions 5 (.slice ⟨none, some (-1), some 2⟩) = .ok [0, 2] := by
  refine ⟨(by decide : (0:ℤ) ≤ 2), ⟨rfl, .inl ⟨by decide, ?_⟩⟩, rfl⟩
  intro k hk; cases hk; decide

/-- C72 for tuples: dimension by dimension.  Partial for the same reason. -/
theorem index_tuple_partial (dims : List ℕ) (t : List PyIdx)
    (h : List.Forall₂ Supported dims t) :
    ∃ ms, transformTuple t = .ok ms ∧
      List.Forall₂ (fun (p : ℕ × PyIdx) m => SameElements (pyPositions p.1 p.2) (mPositions p.1 m))
        (dims.zip t) ms := by
  induction h with
  | nil => exact ⟨[], rfl, .nil⟩
  | @cons n i dims t hi _ ih =>
    obtain ⟨ms, hms, hf⟩ := ih
    have hF := index_partial n i hi
    have hm : ∃ m, transformIndex i = .ok m := by
      cases i with
      | int i => exact ⟨_, rfl⟩
      | slice s =>
        obtain ⟨hs, _⟩ := hi
        obtain ⟨start, stop, step⟩ := s
        dsimp only at hs
        subst hs
        exact ⟨_, rfl⟩
    obtain ⟨m, hm⟩ := hm
    refine ⟨m :: ms, ?_, ?_⟩
    · unfold transformTuple at hms ⊢
      rw [List.mapM_cons, hm, hms]; rfl
    · unfold Faithful at hF
      rw [hm] at hF
      exact .cons hF hf

/-- Iterating over a view visits every element once and in order: the `k`-th request denotes
the element at position `k + 1` of MATLAB. -/
theorem iterate_view (n : ℕ) :
    (iterIndices n).map (fun r => r.bind (mPositions n)) =
      (List.range n).map fun k : ℕ => Except.ok [(k : ℤ) + 1] := by
  unfold iterIndices
  rw [List.map_map]
  refine List.map_congr_left fun k hk => ?_
  have hk : k < n := List.mem_range.1 hk
  show mPositions n (transformInt (k : ℤ)) = _
  rw [transformInt_nonneg (by omega), mPositions_lit, if_pos ⟨by omega, by omega⟩]

example : (iterIndices 3).map (fun r => r.bind (mPositions 3)) =
    [.ok [1], .ok [2], .ok [3]] := rfl

/-- C72 is false: (1) every negative integer that Python accepts denotes another element or
fails in MATLAB, (2) every slice with a start raises `NameError`, (3) every slice with step 1
that stops behind the end of the dimension fails, (4) every slice `a[:k:-1]` with `k` inside
the dimension denotes one element too many. -/
theorem index_refuted :
    (∀ (n : ℕ) (i : ℤ), i < 0 → 0 ≤ i + n → ¬ Faithful n (.int i)) ∧
    (∀ (n : ℕ) (k : ℤ) (stop step : Option ℤ), step ≠ some 0 →
      transformIndex (.slice ⟨some k, stop, step⟩) = .error .nameError ∧
      ¬ Faithful n (.slice ⟨some k, stop, step⟩)) ∧
    (∀ (n : ℕ) (k : ℤ), n < k → ¬ Faithful n (.slice ⟨none, some k, none⟩)) ∧
    (∀ (n : ℕ) (k : ℤ), 0 ≤ k → k < n → ¬ Faithful n (.slice ⟨none, some k, some (-1)⟩)) := by
  refine ⟨?_, ?_, ?_, ?_⟩
  · intro n i h0 h1 hF
    have hpy : pyPositions n (.int i) = .ok [i + n] := by
      show pyInt n i = _
      unfold pyInt
      rw [if_neg (by omega), if_pos ⟨h0, h1⟩]
    unfold Faithful at hF
    rw [hpy] at hF
    rcases hF with ⟨e, e', h, _⟩ | ⟨l, h, h'⟩
    · cases h
    · cases Except.ok.inj h
      have ht : transformIndex (.int i) = .ok (.scalar (.finMinus i.natAbs)) := by
        show Except.ok (transformInt i) = _
        unfold transformInt
        rw [if_pos h0]
      rw [ht] at h'
      replace h' : mPositions n (.scalar (.finMinus i.natAbs)) = _ := h'
      unfold mPositions at h'
      dsimp only at h'
      split at h'
      · have := List.head_eq_of_cons_eq (Except.ok.inj h')
        simp only [mBound] at this
        omega
      · cases h'
  · intro n k stop step hs
    refine ⟨rfl, ?_⟩
    intro hF
    rcases hF with ⟨e, e', h, _⟩ | ⟨l, _, h'⟩
    · have : step.getD 1 ≠ 0 := by
        cases step with
        | none => decide
        | some s => intro h0; exact hs (by simpa using h0)
      change pySlice n _ = _ at h
      unfold pySlice at h
      dsimp only at h
      rw [if_neg this] at h
      cases h
    · cases h'
  · intro n k hk hF
    rcases hF with ⟨e, e', h, _⟩ | ⟨l, _, h'⟩
    · cases h
    · have ht : transformIndex (.slice ⟨none, some k, none⟩) =
          .ok (.range (.lit 1) 1 (.lit k)) := by
        simp only [transformIndex, transformSlice, Option.getD]
        rw [if_neg (show ¬ k < 0 by omega)]
        rfl
      rw [ht] at h'
      replace h' : mPositions n (.range (.lit 1) 1 (.lit k)) = _ := h'
      rw [mPositions_range] at h'
      split at h'
      · rename_i hall
        have hmem : k ∈ colon 1 1 k := by
          unfold colon
          rw [if_pos (by decide), if_pos (by omega)]
          refine List.mem_map.2 ⟨(k - 1).toNat, ?_, ?_⟩
          · rw [List.mem_range]; omega
          · omega
        have := (hall k hmem).2
        omega
      · cases h'
  · intro n k h0 hk hF
    rcases hF with ⟨e, e', h, _⟩ | ⟨l, h, h'⟩
    · cases h
    · have ht : transformIndex (.slice ⟨none, some k, some (-1)⟩) =
          .ok (.range .fin (-1) (.lit (k + 1))) := by
        simp only [transformIndex, transformSlice, Option.getD]
        rw [if_neg (show ¬ k < 0 by omega)]
        rfl
      rw [ht] at h'
      replace h' : mPositions n (.range .fin (-1) (.lit (k + 1))) = _ := h'
      rw [mPositions_range] at h'
      split at h'
      · have hl := congrArg List.length (Except.ok.inj h')
        have hpy : l = pyRange (n - 1) (clip n (-1) (n - 1) k) (-1) := (Except.ok.inj h).symm
        have hc : clip n (-1) ((n : ℤ) - 1) k = k := by
          unfold clip; rw [if_neg (by omega)]; omega
        rw [hc] at hpy
        subst hpy
        simp only [mBound, colon, pyRange, List.length_map, List.length_range] at hl
        have h1 : ¬ (0:ℤ) < -1 := by decide
        have h2 : (-1:ℤ) < 0 := by decide
        simp only [if_neg h1, if_pos h2, Int.neg_neg, Int.ediv_one] at hl
        rw [if_pos (show k + 1 ≤ (n:ℤ) by omega)] at hl
        split at hl <;> omega
      · cases h'

end Qtune.Matlab
