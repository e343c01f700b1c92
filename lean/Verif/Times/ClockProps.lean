import Verif.Times.ClockSpec
import Verif.Times.Props
import Mathlib.Tactic.Linarith
import Mathlib.Tactic.NormNum
import Mathlib.Tactic.IntervalCases
import Mathlib.Tactic.SplitIfs
import Mathlib.Data.Real.Archimedean

/-! # The clock that names files (C196) -/

namespace Qtune.Times

theorem earlier_trans {a b c : DateTime} (h : Earlier a b) (h' : Earlier b c) : Earlier a c := by
  unfold Earlier at *
  omega

theorem daysBeforeYear_succ (y : Nat) (h : 1 ≤ y) :
    daysBeforeYear (y + 1) = daysBeforeYear y + 365 + if leap y then 1 else 0 := by
  obtain ⟨q, rfl⟩ := Nat.exists_eq_add_of_le' h
  unfold daysBeforeYear leap
  simp only [Bool.and_eq_true, Bool.or_eq_true, beq_iff_eq, bne_iff_ne, Nat.add_sub_cancel]
  have e4 : (q + 1) / 4 = q / 4 + if 4 ∣ q + 1 then 1 else 0 := Nat.succ_div
  have e100 : (q + 1) / 100 = q / 100 + if 100 ∣ q + 1 then 1 else 0 := Nat.succ_div
  have e400 : (q + 1) / 400 = q / 400 + if 400 ∣ q + 1 then 1 else 0 := Nat.succ_div
  have i1 : (100 ∣ q + 1) → 4 ∣ q + 1 := fun h => Dvd.dvd.trans (by decide) h
  have i2 : (400 ∣ q + 1) → 100 ∣ q + 1 := fun h => Dvd.dvd.trans (by decide) h
  have i3 : q / 100 ≤ q / 4 := Nat.div_le_div_left (by decide) (by decide)
  simp only [ne_eq, ← Nat.dvd_iff_mod_eq_zero]
  generalize q / 4 = a at *
  generalize q / 100 = b at *
  generalize q / 400 = c at *
  rw [e4, e100, e400]
  by_cases c4 : 4 ∣ q + 1 <;> by_cases c100 : 100 ∣ q + 1 <;> by_cases c400 : 400 ∣ q + 1 <;>
    simp only [c4, c100, c400, if_true, if_false, true_and, false_and, not_true, not_false_iff, or_true, or_false,
      true_or, false_or] <;> first | omega | (exact absurd (i1 c100) c4) | (exact absurd (i2 c400) c100)

theorem daysBeforeMonth_succ (y m : Nat) (h1 : 1 ≤ m) (h2 : m + 1 ≤ 12) :
    daysBeforeMonth y (m + 1) = daysBeforeMonth y m + daysIn y m := by
  unfold daysBeforeMonth daysIn
  have : m ≤ 11 := by omega
  interval_cases m <;> cases leap y <;> simp

theorem daysBeforeMonth_year (y : Nat) : daysBeforeMonth y 12 + daysIn y 12 = 365 + if leap y then 1 else 0 := by
  unfold daysBeforeMonth daysIn
  cases leap y <;> simp

theorem tick_spec {t t' : DateTime} (h : RealDate t) (ht : tick t = some t') :
    RealDate t' ∧ Earlier t t' ∧ micros t' = micros t + 1 := by
  obtain ⟨⟨h1, h2, ⟨h3, h4⟩, ⟨h5, h6⟩, h7, h8, h9, h10⟩, h11⟩ := h
  unfold tick at ht
  have hpos : ∀ y m, 1 ≤ daysIn y m := by
    intro y m
    unfold daysIn
    split_ifs <;> omega
  split_ifs at ht with c1 c2 c3 c4 c5 c6 c7 <;> cases ht
  · refine ⟨⟨⟨h1, h2, ⟨h3, h4⟩, ⟨h5, h6⟩, h7, h8, h9, c1⟩, h11⟩, by simp [Earlier], by simp [micros]; omega⟩
  · refine ⟨⟨⟨h1, h2, ⟨h3, h4⟩, ⟨h5, h6⟩, h7, h8, c2, by simp⟩, h11⟩, by simp [Earlier], by simp [micros]; omega⟩
  · refine ⟨⟨⟨h1, h2, ⟨h3, h4⟩, ⟨h5, h6⟩, h7, c3, by simp, by simp⟩, h11⟩, by simp [Earlier], by simp [micros]; omega⟩
  · refine ⟨⟨⟨h1, h2, ⟨h3, h4⟩, ⟨h5, h6⟩, c4, by simp, by simp, by simp⟩, h11⟩, by simp [Earlier],
      by simp [micros]; omega⟩
  · have h31 : daysIn t.year t.month ≤ 31 := by unfold daysIn; split_ifs <;> omega
    refine ⟨⟨⟨h1, h2, ⟨h3, h4⟩, ⟨by simp, by simp; omega⟩, by simp, by simp, by simp, by simp⟩, c5⟩, by simp [Earlier],
      by simp [micros]; omega⟩
  · refine ⟨⟨⟨h1, h2, ⟨by simp, c6⟩, ⟨by simp, by simp⟩, by simp, by simp, by simp, by simp⟩, hpos _ _⟩,
      by simp [Earlier], ?_⟩
    have := daysBeforeMonth_succ t.year t.month h3 c6
    simp only [micros, this]
    omega
  · have hm : t.month = 12 := by omega
    refine ⟨⟨⟨by simp; omega, c7, ⟨by simp, by simp⟩, ⟨by simp, by simp⟩, by simp, by simp, by simp, by simp⟩, hpos _ _⟩,
      by simp [Earlier], ?_⟩
    have e1 := daysBeforeYear_succ t.year (by omega)
    have e2 := daysBeforeMonth_year t.year
    have e3 : daysBeforeMonth (t.year + 1) 1 = 0 := by unfold daysBeforeMonth; simp
    rw [hm] at c5 h11
    simp only [micros, e1, e3, hm]
    omega

theorem addMicros_spec : ∀ {n : Nat} {t t' : DateTime}, RealDate t → addMicros n t = .ok t' →
    RealDate t' ∧ (0 < n → Earlier t t') ∧ micros t' = micros t + n := by
  intro n
  induction n with
  | zero =>
    intro t t' h he
    cases he
    exact ⟨h, fun h => absurd h (Nat.lt_irrefl _), (Nat.add_zero _).symm⟩
  | succ n ih =>
    intro t t' h he
    rw [addMicros] at he
    split at he
    · cases he
    · rename_i u hu
      obtain ⟨u1, u2, u3⟩ := tick_spec h hu
      obtain ⟨v1, v2, v3⟩ := ih u1 he
      refine ⟨v1, fun _ => ?_, by omega⟩
      by_cases hn : n = 0
      · subst hn; cases he; exact u2
      · exact earlier_trans u2 (v2 (by omega))

theorem addMicros_add : ∀ {n m : Nat} {t a b : DateTime}, addMicros n t = .ok a → addMicros (n + m) t = .ok b →
    addMicros m a = .ok b := by
  intro n
  induction n with
  | zero => intro m t a b h1 h2; cases h1; simpa using h2
  | succ n ih =>
    intro m t a b h1 h2
    rw [show n + 1 + m = (n + m) + 1 by omega] at h2
    rw [addMicros] at h1 h2
    split at h1
    · cases h1
    · rename_i u hu
      rw [hu] at h2
      exact ih h1 h2

theorem rounds_lt {r : ℝ → Nat} (hr : Rounds r) {x y : ℝ} (hx : 0 ≤ x) (hxy : x + 1 < y) : r x < r y := by
  have h1 := abs_le.mp (hr x hx)
  have h2 := abs_le.mp (hr y (by linarith))
  have : (r x : ℝ) < r y := by linarith [h1.2, h2.1]
  exact_mod_cast this

/-- C196: the time that names a file is the time that the clock of the computer showed when the session started plus
the time that has passed since, rounded to a microsecond; it is a date that exists. -/
theorem time_of_name (r : ℝ → Nat) (hr : Rounds r) (wall : ℝ → DateTime) (p0 p : ℝ) (hw : RealDate (wall p0))
    (hp : p0 ≤ p) (t : DateTime) (ht : (startSession wall p0).highRes r p = .ok t) :
    RealDate t ∧ |((micros t : ℝ) - micros (wall p0)) - (p - p0) * 1000000| ≤ 1 / 2 := by
  obtain ⟨h1, -, h3⟩ := addMicros_spec hw ht
  refine ⟨h1, ?_⟩
  rw [h3]
  push_cast
  have := hr ((p - p0) * 1000000) (mul_nonneg (by linarith) (by norm_num))
  show |_ + (r ((p - p0) * 1000000) : ℝ) - _ - _| ≤ _
  rwa [add_sub_cancel_left]

/-- C196 (partial): of two files that one session saves more than a microsecond apart, the later one has the name that
is later in the order of `History.load_directory`, whatever the clock of the computer shows meanwhile - also if it is
set back, as at the end of summer time, or forward.  Missing: files of different sessions, see
`clock_set_back_refuted`. -/
theorem names_in_order_partial (r : ℝ → Nat) (hr : Rounds r) (wall : ℝ → DateTime) (ending : String) (p0 p1 p2 : ℝ)
    (hw : RealDate (wall p0)) (h01 : p0 ≤ p1) (h12 : p1 + 1e-6 < p2) (n1 n2 : String)
    (h1 : (startSession wall p0).saveName r ending p1 = .ok n1)
    (h2 : (startSession wall p0).saveName r ending p2 = .ok n2) : n1 < n2 := by
  unfold Session.saveName at h1 h2
  split at h1
  · cases h1
  · rename_i t1 e1
    split at h2
    · cases h2
    · rename_i t2 e2
      cases h1; cases h2
      have hlt : r ((p1 - p0) * 1000000) < r ((p2 - p0) * 1000000) :=
        rounds_lt hr (mul_nonneg (by linarith) (by norm_num)) (by norm_num at h12 ⊢; linarith)
      obtain ⟨m, hm⟩ := Nat.exists_eq_add_of_lt hlt
      have e2' : addMicros (r ((p1 - p0) * 1000000) + (m + 1)) (wall p0) = .ok t2 := by
        rw [← Nat.add_assoc, ← hm]; exact e2
      have hq := addMicros_add (show addMicros (r ((p1 - p0) * 1000000)) (wall p0) = .ok t1 from e1) e2'
      obtain ⟨r1, -, -⟩ := addMicros_spec hw (show addMicros (r ((p1 - p0) * 1000000)) (wall p0) = .ok t1 from e1)
      obtain ⟨r2, r3, -⟩ := addMicros_spec r1 hq
      exact (fileName_lt ending t1 t2 r1.1 r2.1).2 (r3 (by omega))

/-- C196 (partial): also the files of a later session are later in this order, if the clock of the computer shows a later
time when that session starts than the name of the file of the earlier session.  Missing: clocks that are set back
between the sessions, see `clock_set_back_refuted`. -/
theorem later_session_partial (r : ℝ → Nat) (wall : ℝ → DateTime) (ending : String) (p0 p1 q0 q1 : ℝ)
    (hw : RealDate (wall p0)) (hw' : RealDate (wall q0)) (t : DateTime)
    (ht : (startSession wall p0).highRes r p1 = .ok t) (hlate : Earlier t (wall q0)) (n1 n2 : String)
    (h1 : (startSession wall p0).saveName r ending p1 = .ok n1)
    (h2 : (startSession wall q0).saveName r ending q1 = .ok n2) : n1 < n2 := by
  unfold Session.saveName at h1 h2
  rw [ht] at h1
  cases h1
  split at h2
  · cases h2
  · rename_i t2 e2
    cases h2
    obtain ⟨r1, -, -⟩ := addMicros_spec hw ht
    obtain ⟨r2, r3, -⟩ := addMicros_spec hw' e2
    refine (fileName_lt ending t t2 r1.1 r2.1).2 ?_
    by_cases h0 : r ((q1 - (startSession wall q0).startPerf) * 1000000) = 0
    · have : addMicros 0 (wall q0) = .ok t2 := by rw [← h0]; exact e2
      cases this
      exact hlate
    · exact earlier_trans hlate (r3 (by omega))

/-- C196 is false for sessions: whenever the clock shows an earlier time at the start of a session than the name of a file
of an earlier session, the file that the new session saves at its start is earlier in the order of the history, although
it was saved later. -/
theorem clock_set_back_refuted (r : ℝ → Nat) (hr : Rounds r) (wall : ℝ → DateTime) (ending : String) (p0 p1 q : ℝ)
    (hw : RealDate (wall p0)) (hw' : RealDate (wall q)) (t : DateTime)
    (ht : (startSession wall p0).highRes r p1 = .ok t) (hearly : Earlier (wall q) t) :
    ∃ n1 n2, (startSession wall p0).saveName r ending p1 = .ok n1 ∧
      (startSession wall q).saveName r ending q = .ok n2 ∧ n2 < n1 := by
  obtain ⟨r1, -, -⟩ := addMicros_spec hw ht
  have h0 : r 0 = 0 := by
    have := abs_le.mp (hr 0 (le_refl _))
    have h : (r 0 : ℝ) ≤ 1 / 2 := by linarith [this.2]
    have : (r 0 : ℝ) < 1 := by linarith
    have : r 0 < 1 := by exact_mod_cast this
    omega
  have hq : (startSession wall q).highRes r q = .ok (wall q) := by
    unfold Session.highRes startSession
    simp [h0, addMicros]
  refine ⟨fileName ending t, fileName ending (wall q), ?_, ?_, (fileName_lt ending _ _ hw'.1 r1.1).2 hearly⟩
  · unfold Session.saveName; rw [ht]
  · unfold Session.saveName; rw [hq]

/-- There is such a rounding. -/
example : Rounds fun x => ⌊x + 1 / 2⌋₊ := by
  intro x hx
  have h1 := Nat.floor_le (show (0 : ℝ) ≤ x + 1 / 2 by linarith)
  have h2 := Nat.lt_floor_add_one (x + 1 / 2 : ℝ)
  rw [abs_le]
  constructor <;> linarith

/-- The end of summer time: a session starts at half past two and saves at once; the next session starts an hour later,
at half past two again, a second earlier. -/
example : RealDate ⟨2019, 10, 27, 2, 30, 1, 0⟩ ∧ RealDate ⟨2019, 10, 27, 2, 30, 0, 0⟩ ∧
    Earlier ⟨2019, 10, 27, 2, 30, 0, 0⟩ ⟨2019, 10, 27, 2, 30, 1, 0⟩ :=
  ⟨⟨⟨by simp, by simp, by simp, by simp, by simp, by simp, by simp, by simp⟩, by decide⟩,
    ⟨⟨by simp, by simp, by simp, by simp, by simp, by simp, by simp, by simp⟩, by decide⟩, by simp [Earlier]⟩

/-- The end of February of a leap year. -/
example : tick ⟨2020, 2, 28, 23, 59, 59, 999999⟩ = some ⟨2020, 2, 29, 0, 0, 0, 0⟩ := by decide

example : micros ⟨2000, 3, 1, 0, 0, 0, 0⟩ = (730119 + 60) * 24 * 3600 * 1000000 := by decide

end Qtune.Times
