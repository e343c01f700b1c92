import Verif.Times.Spec
import Mathlib.Data.List.Sort
import Mathlib.Data.String.Basic
import Mathlib.Data.Char
import Mathlib.Tactic.IntervalCases
import Mathlib.Tactic.Ring
import Mathlib.Tactic.Tauto
import Mathlib.Tactic.Positivity

/-! # C59: the names of the files are in chronological order -/

namespace Qtune.Times

theorem digit_lt {a b : Nat} (ha : a < 10) (hb : b < 10) : digit a < digit b ↔ a < b := by
  interval_cases a <;> interval_cases b <;> decide

theorem digit_inj {a b : Nat} (ha : a < 10) (hb : b < 10) : digit a = digit b ↔ a = b := by
  interval_cases a <;> interval_cases b <;> decide

theorem pad_length (w n : Nat) : (pad w n).length = w := by
  induction w with
  | zero => rfl
  | succ w ih => simp [pad, ih]

theorem append_lt {a b x y : List Char} (h : a.length = b.length) :
    a ++ x < b ++ y ↔ a < b ∨ a = b ∧ x < y := by
  induction a generalizing b with
  | nil =>
    cases b with
    | nil => simp
    | cons => simp at h
  | cons c a ih =>
    cases b with
    | nil => simp at h
    | cons d b =>
      simp only [List.length_cons, Nat.add_right_cancel_iff] at h
      simp only [List.cons_append, List.cons_lt_cons_iff, ih h, List.cons.injEq]
      tauto

theorem pad_mod (w n : Nat) : pad w (n % 10 ^ w) = pad w n := by
  have key : ∀ w v n, w ≤ v → pad w (n % 10 ^ v) = pad w n := by
    intro w
    induction w with
    | zero => intro v n _; rfl
    | succ w ih =>
      intro v n h
      simp only [pad]
      rw [ih v n (by omega)]
      congr 2
      obtain ⟨k, rfl⟩ : ∃ k, v = w + (k + 1) := ⟨v - w - 1, by omega⟩
      rw [pow_add, Nat.mod_mul_right_div_self, pow_succ, Nat.mul_comm (10 ^ k), Nat.mod_mul_right_mod]
  exact key w w n le_rfl

theorem pad_lt {w n m : Nat} (hn : n < 10 ^ w) (hm : m < 10 ^ w) :
    (pad w n < pad w m ↔ n < m) ∧ (pad w n = pad w m ↔ n = m) := by
  induction w generalizing n m with
  | zero =>
    simp only [pow_zero, Nat.lt_one_iff] at hn hm
    subst hn hm
    simp
  | succ w ih =>
    have hp : 0 < 10 ^ w := by positivity
    have h1 : ∀ k, k < 10 ^ (w + 1) → k / 10 ^ w < 10 := by
      intro k hk
      rw [Nat.div_lt_iff_lt_mul hp, ← pow_succ']
      exact hk
    have hdn := h1 n hn
    have hdm := h1 m hm
    have hn' := Nat.div_add_mod n (10 ^ w)
    have hm' := Nat.div_add_mod m (10 ^ w)
    have hrn := Nat.mod_lt n hp
    have hrm := Nat.mod_lt m hp
    obtain ⟨ih1, ih2⟩ := ih hrn hrm
    rw [pad_mod, pad_mod] at ih1 ih2
    simp only [pad]
    rw [Nat.mod_eq_of_lt hdn, Nat.mod_eq_of_lt hdm, List.cons_lt_cons_iff, List.cons.injEq,
      digit_lt hdn hdm, digit_inj hdn hdm, ih1, ih2]
    have hmul : ∀ a b : Nat, a < b → 10 ^ w * a + 10 ^ w ≤ 10 ^ w * b := by
      intro a b h
      calc 10 ^ w * a + 10 ^ w = 10 ^ w * (a + 1) := by ring
        _ ≤ 10 ^ w * b := Nat.mul_le_mul_left _ h
    constructor
    · constructor
      · rintro (h | ⟨h, h'⟩)
        · have := hmul _ _ h; omega
        · rw [h] at hn'; omega
      · intro h
        rcases lt_trichotomy (n / 10 ^ w) (m / 10 ^ w) with h2 | h2 | h2
        · exact Or.inl h2
        · refine Or.inr ⟨h2, ?_⟩
          rw [h2] at hn'; omega
        · have := hmul _ _ h2; omega
    · constructor
      · rintro ⟨h, h'⟩
        rw [h, h'] at hn'; omega
      · rintro rfl
        exact ⟨rfl, rfl⟩

theorem field_lt {w n m : Nat} (hn : n < 10 ^ w) (hm : m < 10 ^ w) (x y : List Char) :
    pad w n ++ '_' :: x < pad w m ++ '_' :: y ↔ n < m ∨ n = m ∧ x < y := by
  rw [append_lt (by rw [pad_length, pad_length]), (pad_lt hn hm).1, (pad_lt hn hm).2,
    List.cons_lt_cons_iff]
  simp

theorem field_eq {w n m : Nat} (hn : n < 10 ^ w) (hm : m < 10 ^ w) (x y : List Char) :
    pad w n ++ '_' :: x = pad w m ++ '_' :: y ↔ n = m ∧ x = y := by
  constructor
  · intro h
    have := List.append_inj h (by rw [pad_length, pad_length])
    refine ⟨(pad_lt hn hm).2.1 this.1, ?_⟩
    simpa using this.2
  · rintro ⟨rfl, rfl⟩
    rfl

/-- C59.  The time strings are ordered like the times. -/
theorem time_string_order (t t' : DateTime) (h : Valid t) (h' : Valid t') :
    timeString t < timeString t' ↔ Earlier t t' := by
  obtain ⟨-, h1, h2, h3, h4, h5, h6, h7⟩ := h
  obtain ⟨-, h1', h2', h3', h4', h5', h6', h7'⟩ := h'
  rw [String.lt_iff_toList_lt]
  unfold timeString Earlier
  simp only [String.toList_ofList]
  rw [field_lt (by omega) (by omega), field_lt (by omega) (by omega), field_lt (by omega) (by omega),
    field_lt (by omega) (by omega), field_lt (by omega) (by omega), field_lt (by omega) (by omega),
    (pad_lt (by omega) (by omega)).1]

/-- C59.  Equal strings mean the same microsecond. -/
theorem time_string_injective (t t' : DateTime) (h : Valid t) (h' : Valid t')
    (heq : timeString t = timeString t') : t = t' := by
  obtain ⟨-, h1, h2, h3, h4, h5, h6, h7⟩ := h
  obtain ⟨-, h1', h2', h3', h4', h5', h6', h7'⟩ := h'
  have := congrArg String.toList heq
  unfold timeString at this
  simp only [String.toList_ofList] at this
  rw [field_eq (by omega) (by omega), field_eq (by omega) (by omega), field_eq (by omega) (by omega),
    field_eq (by omega) (by omega), field_eq (by omega) (by omega), field_eq (by omega) (by omega),
    (pad_lt (by omega) (by omega)).2] at this
  cases t
  cases t'
  simp only at this
  simp [this]

theorem timeString_length (t : DateTime) : (timeString t).toList.length = 26 := by
  simp [timeString, pad_length]

/-- The names with the same ending are in the order of the times. -/
theorem fileName_lt (ending : String) (t t' : DateTime) (h : Valid t) (h' : Valid t') :
    fileName ending t < fileName ending t' ↔ Earlier t t' := by
  rw [← time_string_order t t' h h', String.lt_iff_toList_lt, String.lt_iff_toList_lt]
  unfold fileName
  rw [String.toList_append, String.toList_append,
    append_lt (by rw [timeString_length, timeString_length])]
  simp

/-- C59, for a directory: whatever the order in which the operating system lists the files of the times
`times`, they are loaded in chronological order. -/
theorem load_order (ending : String) (times : List DateTime) (hvalid : ∀ t, t ∈ times → Valid t)
    (hsorted : times.Pairwise Earlier) (names : List String) (hnames : names.Perm (times.map (fileName ending))) :
    loadOrder names = times.map (fileName ending) := by
  have hs : (times.map (fileName ending)).Pairwise (· ≤ ·) := by
    rw [List.pairwise_map]
    refine List.Pairwise.imp_of_mem ?_ hsorted
    intro a b ha hb hab
    exact le_of_lt ((fileName_lt ending a b (hvalid a ha) (hvalid b hb)).2 hab)
  have hm : (loadOrder names).Pairwise (· ≤ ·) := by
    have := List.pairwise_mergeSort (le := fun a b : String => decide (a ≤ b))
      (by intro a b c h1 h2; simp only [decide_eq_true_eq] at *; exact le_trans h1 h2)
      (by intro a b; simp only [Bool.or_eq_true, decide_eq_true_eq]; exact le_total a b) names
    refine this.imp ?_
    intro a b h
    simpa using h
  exact List.Perm.eq_of_pairwise (fun a b _ _ h1 h2 => le_antisymm h1 h2) hm hs
    ((List.mergeSort_perm _ _).trans hnames)

/-- New year. -/
example : timeString ⟨2018, 12, 31, 23, 59, 59, 999999⟩ < timeString ⟨2019, 1, 1, 0, 0, 0, 0⟩ :=
  (time_string_order _ _ ⟨by simp, by simp, by simp, by simp, by simp, by simp, by simp, by simp⟩
    ⟨by simp, by simp, by simp, by simp, by simp, by simp, by simp, by simp⟩).2 (by simp [Earlier])

example : timeString ⟨2019, 1, 2, 3, 4, 5, 67⟩ = "2019_01_02_03_04_05_000067" := rfl

end Qtune.Times
