import Verif.Matlab.ScanProps

/-!
# No scan without its options (C149)
-/

namespace Qtune.Matlab

variable {δ : Type}

/-- A number that was found. -/
theorem numArg_inv {args : List (String × Opt)} {n : String} {x : ℝ} (h : numArg args n = .ok x) :
    args.lookup n = some (.num x) := by
  unfold numArg at h
  split at h
  next y hy => cases h; exact hy
  · cases h

/-- A text that was found. -/
theorem textArg_inv {args : List (String × Opt)} {n s : String} (h : textArg args n = .ok s) :
    args.lookup n = some (.text s) := by
  unfold textArg at h
  split at h
  next y hy => cases h; exact hy
  · cases h

/-- A line scan or a scan of the detuning without one of its numbers (center, range, number of points, time
per point or number of repetitions) or without `AWGorDecaDAC`, or a line scan without gate, is not made:
`measure` raises and the voltages stay as they are.  No value is invented for an option that is missing or
has another type. -/
theorem scan_needs_options (lab : Lab δ) (v : Volts) (m : Meas)
    (hm : m.name = "line_scan" ∨ m.name = "detune_scan")
    (h : (∃ n ∈ ["center", "range", "N_points", "ramptime", "N_average"], ∀ x, ¬ HasNum m n x) ∨
      (∀ s, ¬ HasText m "AWGorDecaDAC" s) ∨ m.name = "line_scan" ∧ ∀ s, ¬ HasText m "gate" s) :
    ∃ e, dqdMeasure lab v m = (v, [], .error e) := by
  have hne : ¬ "detune_scan" = "line_scan" := by decide
  have key : ∀ args, convert numberNames m.options = .ok args →
      ∀ (c r n dt reps : ℝ) (md : String), numArg args "center" = .ok c → numArg args "range" = .ok r →
      numArg args "N_points" = .ok n → numArg args "ramptime" = .ok dt →
      numArg args "N_average" = .ok reps → textArg args "AWGorDecaDAC" = .ok md →
      m.name = "line_scan" ∧ ∀ s, ¬ HasText m "gate" s := by
    intro args ha c r n dt reps md h1 h2 h3 h4 h5 h6
    have hl := convert_lookup ha
    have g : ∀ {k x}, numArg args k = .ok x → HasNum m k x := fun hk => (hl _).symm.trans (numArg_inv hk)
    rcases h with ⟨k, hk, hx⟩ | hx | hx
    · simp only [List.mem_cons, List.not_mem_nil, or_false] at hk
      rcases hk with rfl | rfl | rfl | rfl | rfl
      · exact (hx _ (g h1)).elim
      · exact (hx _ (g h2)).elim
      · exact (hx _ (g h3)).elim
      · exact (hx _ (g h4)).elim
      · exact (hx _ (g h5)).elim
    · exact (hx _ ((hl _).symm.trans (textArg_inv h6))).elim
    · exact hx
  rcases hm with hm | hm
  · simp only [dqdMeasure, hm, if_pos]
    cases ha : convert numberNames m.options with
    | error e => exact ⟨_, rfl⟩
    | ok args =>
    simp only [pythonChargeLineScan]
    cases hg : textArg args "gate" with
    | error e => exact ⟨_, rfl⟩
    | ok gt =>
    cases h1 : numArg args "center" with
    | error e => exact ⟨_, rfl⟩
    | ok c =>
    cases h2 : numArg args "range" with
    | error e => exact ⟨_, rfl⟩
    | ok r =>
    cases h3 : numArg args "N_points" with
    | error e => exact ⟨_, rfl⟩
    | ok np =>
    cases h4 : numArg args "ramptime" with
    | error e => exact ⟨_, rfl⟩
    | ok rt =>
    cases h5 : numArg args "N_average" with
    | error e => exact ⟨_, rfl⟩
    | ok na =>
    cases h6 : textArg args "AWGorDecaDAC" with
    | error e => exact ⟨_, rfl⟩
    | ok md =>
      exact ((key args ha _ _ _ _ _ _ h1 h2 h3 h4 h5 h6).2 _
        ((convert_lookup ha _).symm.trans (textArg_inv hg))).elim
  · simp only [dqdMeasure, hm, if_neg hne, if_pos]
    cases ha : convert numberNames m.options with
    | error e => exact ⟨_, rfl⟩
    | ok args =>
    simp only [pythonLineScan]
    cases h1 : numArg args "center" with
    | error e => exact ⟨_, rfl⟩
    | ok c =>
    cases h2 : numArg args "range" with
    | error e => exact ⟨_, rfl⟩
    | ok r =>
    cases h5 : numArg args "N_average" with
    | error e => exact ⟨_, rfl⟩
    | ok na =>
    cases h4 : numArg args "ramptime" with
    | error e => exact ⟨_, rfl⟩
    | ok rt =>
    cases h3 : numArg args "N_points" with
    | error e => exact ⟨_, rfl⟩
    | ok np =>
    cases h6 : textArg args "AWGorDecaDAC" with
    | error e => exact ⟨_, rfl⟩
    | ok md => exact absurd ((key args ha _ _ _ _ _ _ h1 h2 h3 h4 h5 h6).1.symm.trans hm).symm hne

/-- A line scan whose center is `None`. -/
example (lab : Lab δ) (v : Volts) : ∃ e, dqdMeasure lab v
    ⟨"line_scan", [("center", .none), ("range", .num 4), ("gate", .text "SDB2")]⟩ = (v, [], .error e) :=
  scan_needs_options lab v _ (Or.inl rfl)
    (Or.inl ⟨"center", by simp, fun x h => by simp [HasNum, List.lookup] at h⟩)

end Qtune.Matlab
