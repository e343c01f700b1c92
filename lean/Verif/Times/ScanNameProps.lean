import Verif.Times.ScanNameModel
import Verif.Times.ClockProps

/-! # The data files of scans (C197) -/

namespace Qtune.Times

theorem digit_char (d : Nat) (h : d < 10) : digit d ≠ 'l' ∧ digit d ≠ 'd' := by
  interval_cases d <;> decide

theorem timeString_cons (t : DateTime) : ∃ c l, (timeString t).toList = c :: l ∧ c ≠ 'l' ∧ c ≠ 'd' := by
  refine ⟨digit (t.year / 10 ^ 3 % 10), ?_⟩
  unfold timeString
  rw [String.toList_ofList]
  rw [show pad 4 t.year = digit (t.year / 10 ^ 3 % 10) :: pad 3 t.year from rfl]
  exact ⟨_, rfl, digit_char _ (Nat.mod_lt _ (by norm_num))⟩

theorem scanPrefix_cases {m p : String} (h : scanPrefix m = some p) :
    (m = "line_scan" ∧ p = "line_scan") ∨ (m = "detune_scan" ∧ p = "detune_scan_") ∨
    (m = "lead_scan" ∧ p = "lead_scan") ∨ (m = "load_scan" ∧ p = "load_scan") ∨ (m = "2d_scan" ∧ p = "") := by
  unfold scanPrefix at h
  split_ifs at h with h1 h2 h3 h4 h5 <;> cases h
  · exact .inl ⟨h1, rfl⟩
  · exact .inr (.inl ⟨h2, rfl⟩)
  · exact .inr (.inr (.inl ⟨h3, rfl⟩))
  · exact .inr (.inr (.inr (.inl ⟨h4, rfl⟩)))
  · exact .inr (.inr (.inr (.inr ⟨h5, rfl⟩)))

/-- C197: two scans have the same data file only if they are the same kind of measurement at the same microsecond. -/
theorem scan_files_differ (m m' : String) (t t' : DateTime) (h : Valid t) (h' : Valid t') (n : String)
    (hn : scanFile m t = .ok n) (hn' : scanFile m' t' = .ok n) : m = m' ∧ t = t' := by
  unfold scanFile at hn hn'
  split at hn
  · cases hn
  · rename_i p hp
    split at hn'
    · cases hn'
    · rename_i p' hp'
      cases hn
      have e : (p ++ timeString t).toList = (p' ++ timeString t').toList := by
        rw [Except.ok.inj hn']
      rw [String.toList_append, String.toList_append] at e
      obtain ⟨c, l, hc, c1, c2⟩ := timeString_cons t
      obtain ⟨c', l', hc', c1', c2'⟩ := timeString_cons t'
      have fin : ∀ q : String, q.toList ++ (timeString t).toList = q.toList ++ (timeString t').toList → t = t' := by
        intro q hq
        exact time_string_injective t t' h h' (String.toList_injective (List.append_cancel_left hq))
      have l1 : "line_scan".toList = ['l', 'i', 'n', 'e', '_', 's', 'c', 'a', 'n'] := rfl
      have l2 : "detune_scan_".toList = ['d', 'e', 't', 'u', 'n', 'e', '_', 's', 'c', 'a', 'n', '_'] := rfl
      have l3 : "lead_scan".toList = ['l', 'e', 'a', 'd', '_', 's', 'c', 'a', 'n'] := rfl
      have l4 : "load_scan".toList = ['l', 'o', 'a', 'd', '_', 's', 'c', 'a', 'n'] := rfl
      have l5 : "".toList = [] := rfl
      have diag : m = m' → p = p' → m = m' ∧ t = t' := by
        intro h1 h2
        subst h2
        exact ⟨h1, fin _ e⟩
      rcases scanPrefix_cases hp with ⟨h1, h2⟩ | ⟨h1, h2⟩ | ⟨h1, h2⟩ | ⟨h1, h2⟩ | ⟨h1, h2⟩ <;>
        rcases scanPrefix_cases hp' with ⟨h3, h4⟩ | ⟨h3, h4⟩ | ⟨h3, h4⟩ | ⟨h3, h4⟩ | ⟨h3, h4⟩ <;>
        first
        | exact diag (h1.trans h3.symm) (h2.trans h4.symm)
        | (exfalso
           rw [h2, h4, hc, hc'] at e
           simp only [l1, l2, l3, l4, l5, List.cons_append, List.nil_append, List.cons.injEq] at e
           first
           | exact c1 e.1
           | exact c2 e.1
           | exact c1' e.1.symm
           | exact c2' e.1.symm
           | exact absurd e.1 (by decide)
           | exact absurd e.2.1 (by decide))

/-- C197: of the scans of one session, started at `p0`, no two that are more than a microsecond apart have the same data
file, whatever the clock of the computer shows meanwhile. -/
theorem session_scan_files (r : ℝ → Nat) (hr : Rounds r) (wall : ℝ → DateTime) (p0 p1 p2 : ℝ)
    (hw : RealDate (wall p0)) (h01 : p0 ≤ p1) (h12 : p1 + 1e-6 < p2) (t1 t2 : DateTime)
    (h1 : (startSession wall p0).highRes r p1 = .ok t1) (h2 : (startSession wall p0).highRes r p2 = .ok t2)
    (m m' n n' : String) (hn : scanFile m t1 = .ok n) (hn' : scanFile m' t2 = .ok n') : n ≠ n' := by
  rintro rfl
  obtain ⟨r1, -⟩ := time_of_name r hr wall p0 p1 hw h01 t1 h1
  obtain ⟨r2, -⟩ := time_of_name r hr wall p0 p2 hw (by norm_num at h12; linarith) t2 h2
  obtain ⟨-, rfl⟩ := scan_files_differ m m' t1 t2 r1.1 r2.1 n hn hn'
  have := names_in_order_partial r hr wall "" p0 p1 p2 hw h01 h12 (fileName "" t1) (fileName "" t1)
    (by unfold Session.saveName; rw [h1]) (by unfold Session.saveName; rw [h2])
  exact lt_irrefl _ this

/-- C197: exactly the five measurements are known; the others are refused. -/
theorem scan_known (m : String) (t : DateTime) :
    (∃ n, scanFile m t = .ok n) ↔ m ∈ ["line_scan", "detune_scan", "lead_scan", "load_scan", "2d_scan"] := by
  constructor
  · rintro ⟨n, hn⟩
    unfold scanFile at hn
    split at hn
    · cases hn
    · rename_i p hp
      rcases scanPrefix_cases hp with ⟨rfl, -⟩ | ⟨rfl, -⟩ | ⟨rfl, -⟩ | ⟨rfl, -⟩ | ⟨rfl, -⟩ <;> simp
  · intro h
    simp only [List.mem_cons, List.not_mem_nil, or_false] at h
    rcases h with rfl | rfl | rfl | rfl | rfl <;> exact ⟨_, rfl⟩

/-- C197: a file name among the options of a measurement is replaced; the other options are given to MATLAB as they
are. -/
theorem scan_options {α : Type} (options : List (String × α)) (name : α) (k : String) :
    (scanOptions options name).lookup k = if k = "file_name" then some name else options.lookup k := by
  unfold scanOptions
  have hmap : (options.map fun p => if p.1 == "file_name" then (p.1, name) else p).lookup k =
      if k = "file_name" ∧ (options.any (·.1 == "file_name")) then some name else options.lookup k := by
    induction options with
    | nil => simp
    | cons p t ih =>
      obtain ⟨a, x⟩ := p
      by_cases ha : a = "file_name"
      · subst ha
        by_cases hk : k = "file_name"
        · subst hk; simp [List.lookup]
        · have hb : (k == "file_name") = false := by simpa using hk
          simp only [List.map_cons, beq_self_eq_true, if_true, List.lookup, hb]
          rw [ih]; simp [hk]
      · have hb : (a == "file_name") = false := by simpa using ha
        simp only [List.map_cons, hb, List.lookup]
        by_cases hka : k = a
        · subst hka; simp [ha]
        · have : (k == a) = false := by simpa using hka
          simp only [Bool.false_eq_true, if_false, this]
          rw [ih, List.any_cons]; simp only [hb, Bool.false_or]
  split_ifs with h1 h2 h2
  · rw [hmap, if_pos ⟨h2, h1⟩]
  · rw [hmap, if_neg (fun h => h2 h.1)]
  · subst h2
    rw [List.lookup_append]
    have : options.lookup "file_name" = none := by
      rw [List.lookup_eq_none_iff]
      intro p hp
      simp only [List.any_eq_true, not_exists, not_and] at h1
      have := h1 p hp
      simp only [beq_iff_eq] at this
      simpa using fun h => this h.symm
    rw [this]; simp [List.lookup]
  · rw [List.lookup_append]
    have hb : (k == "file_name") = false := by simpa using h2
    simp [List.lookup, hb]

/-- C197 is false for sessions: if the clock shows at the start of a session the time of a scan of an earlier session, a
scan of the same kind at this moment gets the data file of the earlier one. -/
theorem scan_files_sessions_refuted (r : ℝ → Nat) (hr : Rounds r) (wall : ℝ → DateTime) (p0 p1 q : ℝ) (t : DateTime)
    (ht : (startSession wall p0).highRes r p1 = .ok t) (hsame : wall q = t) (m : String) :
    ∃ t', (startSession wall q).highRes r q = .ok t' ∧ scanFile m t' = scanFile m t := by
  have h0 : r 0 = 0 := by
    have := abs_le.mp (hr 0 (le_refl _))
    have h : (r 0 : ℝ) ≤ 1 / 2 := by linarith [this.2]
    have : (r 0 : ℝ) < 1 := by linarith
    have : r 0 < 1 := by exact_mod_cast this
    omega
  refine ⟨wall q, ?_, by rw [hsame]⟩
  unfold Session.highRes startSession
  simp [h0, addMicros]

example : scanFile "detune_scan" ⟨2019, 1, 2, 3, 4, 5, 67⟩ = .ok "detune_scan_2019_01_02_03_04_05_000067" := rfl

end Qtune.Times
