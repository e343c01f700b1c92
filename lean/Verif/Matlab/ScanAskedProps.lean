import Verif.Matlab.ScanProps

/-!
# The scan that is performed is the scan that was asked for (C149)
-/

namespace Qtune.Matlab

open Qtune.Evaluator.Fit (linspaceList)

variable {δ : Type}

/-- A line scan sweeps the gate, range, number of points, time per point and number of
repetitions of its options, for every value of `AWGorDecaDAC`. -/
theorem line_scan_as_asked (lab : Lab δ) (v : Volts) (m : Meas) (hm : m.name = "line_scan")
    (hnum : NumbersOnly m) (gate mode : String) (c r n dt reps : ℝ) (hg : HasText m "gate" gate)
    (hc : HasNum m "center" c) (hr : HasNum m "range" r) (hn : HasNum m "N_points" n)
    (ht : HasNum m "ramptime" dt) (hreps : HasNum m "N_average" reps)
    (hmode : HasText m "AWGorDecaDAC" mode) :
    ∃ s, (dqdMeasure lab v m).2.1 = [s] ∧ s.IsSweep gate (c - r) (c + r) n dt reps := by
  obtain ⟨args, ha⟩ := convert_ok (o := m.options) hnum
  have hl := convert_lookup ha
  refine ⟨chargeLineScan c r gate n dt reps, ?_, rfl, ⟨_, rfl, rfl, rfl, rfl⟩, _, rfl, rfl, rfl⟩
  simp only [dqdMeasure, hm, if_pos, ha, pythonChargeLineScan,
    textArg_of ((hl _).trans hg), numArg_of ((hl _).trans hc), numArg_of ((hl _).trans hr),
    numArg_of ((hl _).trans hn), numArg_of ((hl _).trans ht), numArg_of ((hl _).trans hreps),
    textArg_of ((hl _).trans hmode), bind, Except.bind, pure, Except.pure]
  rcases lab.smrun v (chargeLineScan c r gate n dt reps) with ⟨w, _ | d⟩ <;> rfl

/-- **C148**, in general.  A line scan whose run fails is not followed by anything: all gates, the swept one
included, stay where the program that runs scans has left them, and the exception reaches the caller. -/
theorem failed_line_scan_stays (lab : Lab δ) (v w : Volts) (m : Meas) (hm : m.name = "line_scan")
    (hnum : NumbersOnly m) (gate mode : String) (c r n dt reps : ℝ) (hg : HasText m "gate" gate)
    (hc : HasNum m "center" c) (hr : HasNum m "range" r) (hn : HasNum m "N_points" n)
    (ht : HasNum m "ramptime" dt) (hreps : HasNum m "N_average" reps)
    (hmode : HasText m "AWGorDecaDAC" mode) {e : PyErr}
    (hfail : ∀ s : Scan, s.IsSweep gate (c - r) (c + r) n dt reps → lab.smrun v s = (w, .error e)) :
    (dqdMeasure lab v m).1 = w ∧ (dqdMeasure lab v m).2.2 = .error e := by
  obtain ⟨args, ha⟩ := convert_ok (o := m.options) hnum
  have hl := convert_lookup ha
  have hf := hfail (chargeLineScan c r gate n dt reps) ⟨rfl, ⟨_, rfl, rfl, rfl, rfl⟩, _, rfl, rfl, rfl⟩
  simp only [dqdMeasure, hm, if_pos, ha, pythonChargeLineScan,
    textArg_of ((hl _).trans hg), numArg_of ((hl _).trans hc), numArg_of ((hl _).trans hr),
    numArg_of ((hl _).trans hn), numArg_of ((hl _).trans ht), numArg_of ((hl _).trans hreps),
    textArg_of ((hl _).trans hmode), bind, Except.bind, pure, Except.pure, hf, and_self]

/-- So the voltages that the evaluators take for the x-axis of such a scan
(`np.linspace(center - range, center + range, N_points)`, evaluator.py:563-565 and 630-633) are
the voltages of the gate while the points were measured. -/
theorem line_scan_axis (s : Scan) (gate : String) (c r dt reps : ℝ) (N : ℕ)
    (h : s.IsSweep gate (c - r) (c + r) N dt reps) (i : ℕ) (hi : i < N) :
    ∃ l, s.loops[0]? = some l ∧ l.voltage gate i = (linspaceList (c - r) (c + r) N)[i]? := by
  obtain ⟨-, ⟨l, h0, h1, h2, -⟩, -⟩ := h
  refine ⟨l, h0, ?_⟩
  simp [Loop.voltage, h1, List.lookup, h2, linspaceList, hi]

/-- A scan of the detuning by the DecaDAC sweeps RFB from `center - range` to `center + range`
and RFA the other way round, in the number of points of the options. -/
theorem detune_scan_partial (lab : Lab δ) (v : Volts) (m : Meas) (hm : m.name = "detune_scan")
    (hnum : NumbersOnly m) (c r n dt reps : ℝ) (hc : HasNum m "center" c)
    (hr : HasNum m "range" r) (hn : HasNum m "N_points" n) (ht : HasNum m "ramptime" dt)
    (hreps : HasNum m "N_average" reps) (hmode : HasText m "AWGorDecaDAC" "DecaDAC") :
    ∃ s l k, (dqdMeasure lab v m).2.1 = [s] ∧ s.loops = [l, k] ∧
      l.channels = [("RFB", c - r, c + r), ("RFA", c + r, c - r)] ∧ l.npoints = n ∧
      l.seconds = dt ∧ k.channels = [] ∧ k.npoints = reps := by
  obtain ⟨args, ha⟩ := convert_ok (o := m.options) hnum
  have hl := convert_lookup ha
  refine ⟨⟨[⟨[("RFB", -r + c, r + c), ("RFA", - -r + c, -r + c)], n, dt⟩, ⟨[], reps, 0⟩],
    [[("RFB", some 0), ("RFA", some 0)]]⟩, _, _, ?_, rfl, ?_, rfl, rfl, rfl, rfl⟩
  rotate_left
  · simp only [neg_neg, add_comm (-r) c, add_comm r c, ← sub_eq_add_neg]
  simp only [dqdMeasure, hm, ha, pythonLineScan,
    numArg_of ((hl _).trans hc), numArg_of ((hl _).trans hr),
    numArg_of ((hl _).trans hn), numArg_of ((hl _).trans ht), numArg_of ((hl _).trans hreps),
    textArg_of ((hl _).trans hmode), bind, Except.bind, detuneLineScan, if_pos]
  simp

/-- With the pulse generator (the default of InterDotTCByLineScan) the scan does not depend on
`center`, `range`, `N_points` and `ramptime`; with any other text no scan is made at all. -/
theorem detune_scan_refuted (lab : Lab δ) (v : Volts) (m : Meas) (hm : m.name = "detune_scan")
    (hnum : NumbersOnly m) (c r n dt reps : ℝ) (mode : String) (hc : HasNum m "center" c)
    (hr : HasNum m "range" r) (hn : HasNum m "N_points" n) (ht : HasNum m "ramptime" dt)
    (hreps : HasNum m "N_average" reps) (hmode : HasText m "AWGorDecaDAC" mode) :
    (mode = "AWG" → (dqdMeasure lab v m).2.1 = [lab.awg 1280 reps]) ∧
    (mode ≠ "AWG" → mode ≠ "DecaDAC" →
      (dqdMeasure lab v m).2.1 = [] ∧ ∃ e, (dqdMeasure lab v m).2.2 = .error e) := by
  obtain ⟨args, ha⟩ := convert_ok (o := m.options) hnum
  have hl := convert_lookup ha
  have hne : ¬ "detune_scan" = "line_scan" := by decide
  have h : ∀ x, detuneLineScan lab.awg c r reps dt n mode = x →
      dqdMeasure lab v m = match x with
        | .error e => (v, [], .error e)
        | .ok scan => ((lab.smrun v scan).1, [scan], (lab.smrun v scan).2) := by
    intro x hx
    simp only [dqdMeasure, hm, if_neg hne, if_pos, ha, pythonLineScan,
      numArg_of ((hl _).trans hc), numArg_of ((hl _).trans hr),
      numArg_of ((hl _).trans hn), numArg_of ((hl _).trans ht), numArg_of ((hl _).trans hreps),
      textArg_of ((hl _).trans hmode), bind, Except.bind, hx]
    cases x <;> rfl
  constructor
  · rintro rfl
    rw [h _ rfl]
    simp [detuneLineScan]
  · intro h1 h2
    rw [h (.error (.other 2)) (by simp [detuneLineScan, h1, h2])]
    exact ⟨rfl, _, rfl⟩

/-- A 2D scan sweeps SDB2 (fast) and SDB1 (slow, 20 lines) around their present voltages by the
range of the options. -/
theorem scan_2d_partial (lab : Lab δ) (v : Volts) (m : Meas) (hm : m.name = "2d_scan")
    (r n s1 s2 : ℝ) (hr : HasNum m "range" r) (hn : HasNum m "n_points" n)
    (h1 : v "SDB1" = some s1) (h2 : v "SDB2" = some s2) :
    ∃ s l k, (dqdMeasure lab v m).2.1 = [s] ∧ s.loops = [l, k] ∧
      l.channels = [("SDB2", s2 - r, s2 + r)] ∧ k.channels = [("SDB1", s1 - r, s1 + r)] ∧
      k.npoints = 20 := by
  have hr' : m.options.lookup "range" = some (.num r) := hr
  have hn' : m.options.lookup "n_points" = some (.num n) := hn
  refine ⟨qpcScan2D lab.speed r n s1 s2, _, _, ?_, rfl, ?_, ?_, rfl⟩
  · simp [dqdMeasure, hm, hr', hn', toNumber, pythonQPCScan2D, h1, h2]
  · simp [sub_eq_add_neg]
  · simp [sub_eq_add_neg]

/-- The number of points of the fast gate of a 2D scan is the smallest multiple of 256 with which
the gate is not swept faster than `speed`, the speed at which it may be ramped. -/
theorem scan_2d_ramp (lab : Lab δ) (hs : 0 < lab.speed) (v : Volts) (m : Meas)
    (hm : m.name = "2d_scan") (r n s1 s2 : ℝ) (hr : HasNum m "range" r)
    (hn : HasNum m "n_points" n) (h1 : v "SDB1" = some s1) (h2 : v "SDB2" = some s2) :
    ∃ s l k, (dqdMeasure lab v m).2.1 = [s] ∧ s.loops = [l, k] ∧
      (∃ j : ℤ, l.npoints = 256 * j) ∧
      2 * |r| ≤ lab.speed * (l.npoints * l.seconds) ∧
      ∀ j : ℤ, 2 * |r| ≤ lab.speed * (256 * j * l.seconds) → l.npoints ≤ 256 * j := by
  have hr' : m.options.lookup "range" = some (.num r) := hr
  have hn' : m.options.lookup "n_points" = some (.num n) := hn
  refine ⟨qpcScan2D lab.speed r n s1 s2, _, _, ?_, rfl, ?_⟩
  · simp [dqdMeasure, hm, hr', hn', toNumber, pythonQPCScan2D, h1, h2]
  have ha : |r - -r| = 2 * |r| := by
    rw [sub_neg_eq_add, ← two_mul, abs_mul, abs_two]
  dsimp only
  rw [ha]
  obtain ⟨x, hx⟩ : ∃ x, x = 2 * |r| / lab.speed / 0.005 := ⟨_, rfl⟩
  rw [← hx]
  have hx' : 2 * |r| = lab.speed * (x * 0.005) := by
    rw [hx, div_mul_cancel₀ _ (by norm_num : (0.005 : ℝ) ≠ 0), mul_div_cancel₀ _ hs.ne']
  rw [hx']
  have key : ∀ y : ℝ, lab.speed * (x * 0.005) ≤ lab.speed * (y * 0.005) ↔ x ≤ y := fun y => by
    rw [mul_le_mul_iff_right₀ hs, mul_le_mul_iff_left₀ (by norm_num : (0 : ℝ) < 0.005)]
  have hlo := Int.floor_le (x / 256)
  have hhi := Int.lt_floor_add_one (x / 256)
  split_ifs with hp
  · refine ⟨⟨⌊x / 256⌋ + 1, by push_cast; ring⟩, (key _).2 ?_, fun j hj => ?_⟩
    · linarith
    · have hj' := (key _).1 hj
      have : ((⌊x / 256⌋ : ℤ) : ℝ) < j := by linarith
      have : ⌊x / 256⌋ + 1 ≤ j := by exact_mod_cast this
      have : ((⌊x / 256⌋ : ℤ) : ℝ) + 1 ≤ j := by exact_mod_cast this
      linarith
  · refine ⟨⟨⌊x / 256⌋, by linarith⟩, le_refl _, fun j hj => (key _).1 hj⟩

/-- The gates, the centers and the number of points of a 2D scan are ignored: two measurements
with the same range are the same scan, whatever their other options are.  In particular gates
other than SDB1 and SDB2 are never swept. -/
theorem scan_2d_refuted (lab : Lab δ) (v : Volts) (m m' : Meas) (hm : m.name = "2d_scan")
    (hm' : m'.name = "2d_scan") (r n n' : ℝ) (hr : HasNum m "range" r) (hr' : HasNum m' "range" r)
    (hn : HasNum m "n_points" n) (hn' : HasNum m' "n_points" n') :
    dqdMeasure lab v m = dqdMeasure lab v m' ∧
    ∀ s ∈ (dqdMeasure lab v m).2.1, ∀ g ∈ s.swept, g = "SDB1" ∨ g = "SDB2" := by
  have a1 : m.options.lookup "range" = some (.num r) := hr
  have a2 : m.options.lookup "n_points" = some (.num n) := hn
  have b1 : m'.options.lookup "range" = some (.num r) := hr'
  have b2 : m'.options.lookup "n_points" = some (.num n') := hn'
  have e1 : dqdMeasure lab v m = pythonQPCScan2D lab v r n := by
    simp [dqdMeasure, hm, a1, a2, toNumber]
  have e2 : dqdMeasure lab v m' = pythonQPCScan2D lab v r n' := by
    simp [dqdMeasure, hm', b1, b2, toNumber]
  refine ⟨?_, ?_⟩
  · rw [e1, e2]
    rfl
  · rw [e1]
    unfold pythonQPCScan2D
    split
    · simp only [List.mem_singleton, forall_eq]
      simp [Scan.swept, qpcScan2D, or_comm]
    · simp

/-- A lead scan uses only the gate of its options, a load scan none of them. -/
theorem lead_load_refuted (lab : Lab δ) (v : Volts) (m m' : Meas) (hn : m.name = m'.name) :
    (m.name = "load_scan" → dqdMeasure lab v m = dqdMeasure lab v m') ∧
    (m.name = "lead_scan" → ∀ gate mode mode', HasText m "gate" gate → HasText m' "gate" gate →
      HasText m "AWGorDecaDAC" mode → HasText m' "AWGorDecaDAC" mode' →
      dqdMeasure lab v m = dqdMeasure lab v m') := by
  constructor
  · intro h
    have h' : m'.name = "load_scan" := hn ▸ h
    simp [dqdMeasure, h, h']
  · intro h gate mode mode' g1 g2 m1 m2
    have h' : m'.name = "lead_scan" := hn ▸ h
    simp [dqdMeasure, h, h', leadScan, textArg_of g1, textArg_of g2, textArg_of m1, textArg_of m2,
      bind, Except.bind]

/-- The options of the line scan of a sensing dot meet the hypotheses. -/
example : NumbersOnly sdbScan ∧ HasText sdbScan "gate" "SDB2" ∧ HasNum sdbScan "center" (-0.5) ∧
    HasNum sdbScan "range" 4e-3 ∧ HasNum sdbScan "N_points" 1280 ∧
    HasNum sdbScan "ramptime" 0.0005 ∧ HasNum sdbScan "N_average" 1 ∧
    HasText sdbScan "AWGorDecaDAC" "DecaDAC" := by
  refine ⟨?_, rfl, rfl, rfl, rfl, rfl, rfl, rfl⟩
  intro name hname p hp h
  simp only [sdbScan, List.mem_cons, List.not_mem_nil, or_false] at hp hname
  rcases hp with rfl | rfl | rfl | rfl | rfl | rfl | rfl <;> first | exact ⟨_, rfl⟩ | (subst h; simp at hname)

/-- The default measurement of SensingDot2D with two other gates (evaluator.py:691-695). -/
noncomputable def scan2d (gate1 gate2 : String) (n : ℝ) : Meas where
  name := "2d_scan"
  options := [("center", .list [.num 0, .num 0]), ("range", .num 10e-3), ("gate1", .text gate1),
    ("gate2", .text gate2), ("ramptime", .num 0.0005), ("n_lines", .num 20), ("n_points", .num n),
    ("N_average", .num 1), ("AWGorDecaDAC", .text "DecaDAC")]

example (lab : Lab δ) (v : Volts) : dqdMeasure lab v (scan2d "SDA1" "SDA2" 104) =
    dqdMeasure lab v (scan2d "SDB1" "SDB2" 52) :=
  (scan_2d_refuted lab v (scan2d "SDA1" "SDA2" 104) (scan2d "SDB1" "SDB2" 52) rfl rfl (10e-3) 104 52 rfl rfl rfl rfl).1

/-- The default 2D scan of the sensing dots at a ramp speed of 1 V/s has at least 4 points. -/
example : ∃ s l k, (dqdMeasure (sampleLab false) (fun _ => some (-0.5)) (scan2d "SDB1" "SDB2" 104)).2.1
      = [s] ∧ s.loops = [l, k] ∧ (4 : ℝ) ≤ l.npoints * (l.seconds * 200) := by
  obtain ⟨s, l, k, h1, h2, _, h3, _⟩ := scan_2d_ramp (sampleLab false) (by simp [sampleLab])
    (fun _ => some (-0.5)) (scan2d "SDB1" "SDB2" 104) rfl (10e-3) 104 (-0.5) (-0.5) rfl rfl rfl rfl
  refine ⟨s, l, k, h1, h2, ?_⟩
  simp only [sampleLab, one_mul] at h3
  rw [abs_of_pos (by norm_num)] at h3
  linarith

end Qtune.Matlab
