import Mathlib.Tactic.NormNum
import Mathlib.Tactic.Ring
import Verif.Matlab.ScanSpec
import Verif.Matlab.VoltProps

/-!
# Properties of the measurements of the double dot
-/

namespace Qtune.Matlab

variable {δ : Type}

/-! ## Auxiliary lemmas -/

theorem smset_of_not_mem (l : Series) (v : Volts) (g : String) (hg : g ∉ l.index) :
    smset v l g = v g := by
  induction l generalizing v with
  | nil => rfl
  | cons p l ih =>
    obtain ⟨h1, h2⟩ : g ≠ p.1 ∧ g ∉ Series.index l := by
      simpa [Series.index, List.mem_cons, not_or] using hg
    show smset (Function.update v p.1 p.2) l g = v g
    rw [ih _ h2, Function.update_of_ne h1]

theorem cleanup_of_not_mem (cs : List Series) (v : Volts) (g : String)
    (hg : ∀ l ∈ cs, g ∉ Series.index l) : cs.foldl smset v g = v g := by
  induction cs generalizing v with
  | nil => rfl
  | cons l cs ih =>
    rw [List.foldl_cons, ih _ fun l' h => hg l' (List.mem_cons_of_mem _ h),
      smset_of_not_mem _ _ _ (hg l List.mem_cons_self)]

theorem runs_stay {smrun : Volts → Scan → Volts × Except PyErr δ} (hr : Runs smrun) (v : Volts)
    (s : Scan) (g : String) (h1 : g ∉ s.swept) (h2 : ∀ l ∈ s.cleanup, g ∉ Series.index l) :
    (smrun v s).1 g = v g := by
  obtain ⟨u, hu, k, hk, _⟩ := hr v s
  rw [hk, cleanup_of_not_mem _ _ _ fun l hl => h2 l (List.mem_of_mem_take hl), hu g h1]

theorem runs_ok {smrun : Volts → Scan → Volts × Except PyErr δ} (hr : Runs smrun) {v w : Volts}
    {s : Scan} {d : δ} (h : smrun v s = (w, .ok d)) :
    ∃ u : Volts, (∀ c, c ∉ s.swept → u c = v c) ∧ w = s.cleanup.foldl smset u := by
  obtain ⟨u, hu, k, hk, hd⟩ := hr v s
  refine ⟨u, hu, ?_⟩
  rw [h] at hk hd
  rw [← List.take_of_length_le (hd d rfl)]
  exact hk

theorem convert_lookup {names : List String} {o args : List (String × Opt)}
    (h : convert names o = .ok args) (k : String) : args.lookup k = o.lookup k := by
  induction o generalizing args with
  | nil => cases h; rfl
  | cons p o ih =>
    obtain ⟨k', x⟩ := p
    simp only [convert] at h
    split at h
    · cases h
    next o' ho =>
      split at h
      · cases h
      next rest hrest =>
        cases h
        have hx : o' = x := by
          split at ho
          · cases x <;> simp_all [toNumber]
          · exact (Except.ok.inj ho).symm
        subst hx
        by_cases hk : k = k'
        · subst hk; simp [List.lookup]
        · have : (k == k') = false := by simpa using hk
          simp only [List.lookup, this]
          exact ih hrest

theorem convert_ok {o : List (String × Opt)}
    (h : ∀ name ∈ numberNames, ∀ p ∈ o, p.1 = name → ∃ x, p.2 = .num x) :
    ∃ args, convert numberNames o = .ok args := by
  induction o with
  | nil => exact ⟨_, rfl⟩
  | cons p o ih =>
    obtain ⟨args, ha⟩ := ih fun n hn q hq => h n hn q (List.mem_cons_of_mem _ hq)
    obtain ⟨k, x⟩ := p
    refine ⟨(k, x) :: args, ?_⟩
    have hx : (if k ∈ numberNames then toNumber x else Except.ok x) = .ok x := by
      split
      next hk =>
        obtain ⟨y, hy⟩ := h k hk (k, x) List.mem_cons_self rfl
        simp only at hy
        rw [hy]; rfl
      · rfl
    simp only [convert, hx, ha]

theorem numArg_of {args : List (String × Opt)} {n : String} {x : ℝ}
    (h : args.lookup n = some (.num x)) : numArg args n = .ok x := by
  simp [numArg, h]

theorem textArg_of {args : List (String × Opt)} {n s : String}
    (h : args.lookup n = some (.text s)) : textArg args n = .ok s := by
  simp [textArg, h]

theorem rf_cleanup (v : Volts) :
    smset v [("RFA", some 0), ("RFB", some 0)] "RFA" = some 0 ∧
    smset v [("RFA", some 0), ("RFB", some 0)] "RFB" = some 0 ∧
    smset v [("RFB", some 0), ("RFA", some 0)] "RFA" = some 0 ∧
    smset v [("RFB", some 0), ("RFA", some 0)] "RFB" = some 0 := by
  refine ⟨?_, ?_, ?_, ?_⟩ <;> simp [smset, Function.update]

/-- What one successful scan does to the voltages. -/
theorem line_scan_voltages {lab : Lab δ} (hl : lab.Proper) {v w : Volts} {args : List (String × Opt)}
    {scans : List Scan} {d : δ} (h : pythonChargeLineScan lab v args = (w, scans, .ok d)) :
    ∃ gate, textArg args "gate" = .ok gate ∧ w gate = v gate ∧
      (∀ g, g ≠ gate → IsRF g → w g = some 0) ∧ ∀ g, g ≠ gate → ¬ IsRF g → w g = v g := by
  unfold pythonChargeLineScan at h
  split at h
  · simp at h
  next gate scan hs =>
    cases hg : textArg args "gate" with
    | error e => rw [hg] at hs; cases hs
    | ok g0 =>
    rw [hg] at hs
    cases h1 : numArg args "center" with
    | error e => rw [h1] at hs; cases hs
    | ok c =>
    rw [h1] at hs
    cases h2 : numArg args "range" with
    | error e => rw [h2] at hs; cases hs
    | ok r =>
    rw [h2] at hs
    cases h3 : numArg args "N_points" with
    | error e => rw [h3] at hs; cases hs
    | ok np =>
    rw [h3] at hs
    cases h4 : numArg args "ramptime" with
    | error e => rw [h4] at hs; cases hs
    | ok rt =>
    rw [h4] at hs
    cases h5 : numArg args "N_average" with
    | error e => rw [h5] at hs; cases hs
    | ok na =>
    rw [h5] at hs
    cases h6 : textArg args "AWGorDecaDAC" with
    | error e => rw [h6] at hs; cases hs
    | ok md =>
    rw [h6] at hs
    obtain ⟨rfl, rfl⟩ : g0 = gate ∧ chargeLineScan c r g0 np rt na = scan := by
      have := Except.ok.inj hs
      exact ⟨congrArg Prod.fst this, congrArg Prod.snd this⟩
    clear hs
    rcases hr : lab.smrun v (chargeLineScan c r g0 np rt na) with ⟨x, _ | d'⟩
    · rw [hr] at h; simp at h
    rw [hr] at h
    simp only [Prod.mk.injEq] at h
    obtain ⟨rfl, -, -⟩ := h
    obtain ⟨u, hu, rfl⟩ := runs_ok hl.runs hr
    refine ⟨g0, rfl, by simp [smset], ?_, ?_⟩
    · intro g hne hrf
      have : smset (List.foldl smset u (chargeLineScan c r g0 np rt na).cleanup) [(g0, v g0)] g
          = smset u [("RFA", some 0), ("RFB", some 0)] g := by
        rw [smset_of_not_mem _ _ _ (by simpa [Series.index] using hne)]; rfl
      rw [this]
      rcases hrf with rfl | rfl
      · exact (rf_cleanup u).1
      · exact (rf_cleanup u).2.1
    · intro g hne hrf
      have hng : g ≠ "RFA" ∧ g ≠ "RFB" := by simpa [IsRF, not_or] using hrf
      rw [smset_of_not_mem _ _ _ (by simpa [Series.index] using hne)]
      show smset u [("RFA", some 0), ("RFB", some 0)] g = v g
      rw [smset_of_not_mem _ _ _ (by simpa [Series.index] using hng)]
      exact hu g (by simpa [Scan.swept, chargeLineScan] using hne)

/-- A scan whose cleanup sets RFA and RFB, or nothing. -/
theorem rf_scan_voltages {lab : Lab δ} (hl : lab.Proper) {v w : Volts} {s : Scan} {d : δ}
    (h : lab.smrun v s = (w, .ok d)) (hs : ∀ c ∈ s.swept, IsRF c)
    (hc : s.cleanup = [[("RFB", some 0), ("RFA", some 0)]] ∨ s.swept = [] ∧ s.cleanup = []) :
    (∀ g, ¬ IsRF g → w g = v g) ∧
      ((∀ g, IsRF g → w g = some 0) ∨ s.swept = [] ∧ ∀ g, w g = v g) := by
  obtain ⟨u, hu, rfl⟩ := runs_ok hl.runs h
  rcases hc with hc | ⟨h1, h2⟩
  · rw [hc]
    refine ⟨fun g hg => ?_, Or.inl fun g hg => ?_⟩
    · have hng : g ≠ "RFA" ∧ g ≠ "RFB" := by simpa [IsRF, not_or] using hg
      show smset u _ g = v g
      rw [smset_of_not_mem _ _ _ (by simp [Series.index, hng])]
      exact hu g fun hm => hg (hs g hm)
    · rcases hg with rfl | rfl
      · exact (rf_cleanup u).2.2.1
      · exact (rf_cleanup u).2.2.2
  · rw [h2]
    have : ∀ g, u g = v g := fun g => hu g (by simp [h1])
    exact ⟨fun g _ => this g, Or.inr ⟨h1, this⟩⟩

theorem qpc_scan_voltages {lab : Lab δ} (hl : lab.Proper) {v w : Volts} {r n : ℝ}
    {scans : List Scan} {d : δ} (h : pythonQPCScan2D lab v r n = (w, scans, .ok d)) : w = v := by
  unfold pythonQPCScan2D at h
  split at h
  next s1 s2 h1 h2 =>
    rcases hr : lab.smrun v (qpcScan2D lab.speed r n s1 s2) with ⟨x, _ | d'⟩
    · simp [hr] at h
    simp only [hr, Prod.mk.injEq] at h
    obtain ⟨rfl, -, -⟩ := h
    obtain ⟨u, hu, rfl⟩ := runs_ok hl.runs hr
    funext g
    show smset (smset u [("SDB1", some s1)]) [("SDB2", some s2)] g = v g
    by_cases hg2 : g = "SDB2"
    · subst hg2; simp [smset, h2]
    rw [smset_of_not_mem _ _ _ (by simpa [Series.index] using hg2)]
    by_cases hg1 : g = "SDB1"
    · subst hg1; simp [smset, h1]
    rw [smset_of_not_mem _ _ _ (by simpa [Series.index] using hg1)]
    exact hu g (by simp [Scan.swept, qpcScan2D, hg1, hg2])
  · simp at h

/-- One successful measurement: all gates but RFA and RFB are where they were, these two are
where they were or at zero. -/
theorem measure_voltages {lab : Lab δ} (hl : lab.Proper) {v w : Volts} {m : Meas}
    {scans : List Scan} {d : δ} (h : dqdMeasure lab v m = (w, scans, .ok d)) :
    (∀ g, ¬ IsRF g → w g = v g) ∧ ∀ g, w g = v g ∨ w g = some 0 := by
  have fin : ∀ {s : Scan}, lab.smrun v s = (w, .ok d) → (∀ c ∈ s.swept, IsRF c) →
      (s.cleanup = [[("RFB", some 0), ("RFA", some 0)]] ∨ s.swept = [] ∧ s.cleanup = []) →
      (∀ g, ¬ IsRF g → w g = v g) ∧ ∀ g, w g = v g ∨ w g = some 0 := by
    intro s hr hs hc
    obtain ⟨h1, h2⟩ := rf_scan_voltages hl hr hs hc
    refine ⟨h1, fun g => ?_⟩
    by_cases hg : IsRF g
    · rcases h2 with h2 | h2
      · exact Or.inr (h2 g hg)
      · exact Or.inl (h2.2 g)
    · exact Or.inl (h1 g hg)
  unfold dqdMeasure at h
  split at h
  · split at h
    · simp at h
    next args _ =>
      obtain ⟨gate, -, h1, h2, h3⟩ := line_scan_voltages hl h
      constructor
      · intro g hg
        by_cases hgg : g = gate
        · rw [hgg, h1]
        · exact h3 g hgg hg
      · intro g
        by_cases hgg : g = gate
        · rw [hgg]; exact Or.inl h1
        · by_cases hg : IsRF g
          · exact Or.inr (h2 g hgg hg)
          · exact Or.inl (h3 g hgg hg)
  split at h
  · split at h
    · simp at h
    next args _ =>
      unfold pythonLineScan at h
      split at h
      · simp at h
      next scan hs =>
        rcases hr : lab.smrun v scan with ⟨x, r⟩
        simp only [hr, Prod.mk.injEq] at h
        obtain ⟨rfl, -, rfl⟩ := h
        have hd : ∃ c r' na rt np md, detuneLineScan lab.awg c r' na rt np md = .ok scan := by
          cases h1 : numArg args "center" with
          | error e => rw [h1] at hs; cases hs
          | ok c =>
          rw [h1] at hs
          cases h2 : numArg args "range" with
          | error e => rw [h2] at hs; cases hs
          | ok r =>
          rw [h2] at hs
          cases h5 : numArg args "N_average" with
          | error e => rw [h5] at hs; cases hs
          | ok na =>
          rw [h5] at hs
          cases h4 : numArg args "ramptime" with
          | error e => rw [h4] at hs; cases hs
          | ok rt =>
          rw [h4] at hs
          cases h3 : numArg args "N_points" with
          | error e => rw [h3] at hs; cases hs
          | ok np =>
          rw [h3] at hs
          cases h6 : textArg args "AWGorDecaDAC" with
          | error e => rw [h6] at hs; cases hs
          | ok md =>
          rw [h6] at hs
          exact ⟨_, _, _, _, _, _, hs⟩
        obtain ⟨c, r', na, rt, np, md, hd⟩ := hd
        unfold detuneLineScan at hd
        split at hd
        · cases hd
          exact fin hr (by simp [Scan.swept, IsRF]) (Or.inl rfl)
        split at hd
        · cases hd
          have := hl.awg 1280 na
          exact fin hr (by simp [this.1]) (Or.inr this)
        · cases hd
  split at h
  · unfold leadScan at h
    split at h
    · simp at h
    next loops hs =>
      have hd : ∃ g, lab.lead g = .ok loops := by
        cases h6 : textArg m.options "AWGorDecaDAC" with
        | error e => rw [h6] at hs; cases hs
        | ok md =>
        rw [h6] at hs
        cases h7 : textArg m.options "gate" with
        | error e => rw [h7] at hs; cases hs
        | ok g =>
        rw [h7] at hs
        exact ⟨g, hs⟩
      obtain ⟨g, hg⟩ := hd
      dsimp only at h
      rcases hr : lab.smrun v ⟨loops, [[("RFB", some 0), ("RFA", some 0)]]⟩ with ⟨x, r⟩
      simp only [hr, Prod.mk.injEq] at h
      obtain ⟨rfl, -, rfl⟩ := h
      exact fin hr (hl.lead g loops hg) (Or.inl rfl)
  split at h
  · unfold loadScan at h
    rcases hr : lab.smrun v lab.load with ⟨x, r⟩
    simp only [hr, Prod.mk.injEq] at h
    obtain ⟨rfl, -, rfl⟩ := h
    exact fin hr (by simp [hl.load.1]) (Or.inr hl.load)
  split at h
  · split at h
    · split at h
      · obtain rfl := qpc_scan_voltages hl h
        exact ⟨fun _ _ => rfl, fun _ => Or.inl rfl⟩
      all_goals simp at h
    · simp at h
  · simp at h

/-! ## Measuring leaves the gates where they are (C148) -/

/-- However many measurements are made, all gates but RFA and RFB have the voltages they had
before, whichever gates were swept; RFA and RFB have the voltages they had or are at zero.
Missing: the voltages of RFA and RFB, see the refutation. -/
theorem gates_stay_partial (lab : Lab δ) (hl : lab.Proper) (v w : Volts) (ms : List Meas)
    (h : Measured lab v ms w) :
    (∀ g, g ≠ "RFA" → g ≠ "RFB" → w g = v g) ∧ ∀ g, w g = v g ∨ w g = some 0 := by
  induction h with
  | nil v => exact ⟨fun _ _ _ => rfl, fun _ => Or.inl rfl⟩
  | cons h _ ih =>
    obtain ⟨h1, h2⟩ := measure_voltages hl h
    refine ⟨fun g ha hb => ?_, fun g => ?_⟩
    · rw [ih.1 g ha hb, h1 g (by simp [IsRF, ha, hb])]
    · rcases ih.2 g with h3 | h3
      · rw [h3]; exact h2 g
      · exact Or.inr h3

/-- If RFA is not at zero, every scan of another gate moves it to zero, and the same holds of
RFB.  So does every scan of the detuning that is made with the DecaDAC. -/
theorem gates_stay_refuted (lab : Lab δ) (hl : lab.Proper) (v w : Volts) (m : Meas)
    (scans : List Scan) (d : δ) (h : dqdMeasure lab v m = (w, scans, .ok d)) :
    (∀ gate, m.name = "line_scan" → HasText m "gate" gate →
      ∀ g, IsRF g → g ≠ gate → v g ≠ some 0 → w g = some 0 ∧ w g ≠ v g) ∧
    (m.name = "detune_scan" → HasText m "AWGorDecaDAC" "DecaDAC" →
      ∀ g, IsRF g → v g ≠ some 0 → w g = some 0 ∧ w g ≠ v g) := by
  refine ⟨fun gate hn hg g hrf hne h0 => ?_, fun hn hm g hrf h0 => ?_⟩
  · simp only [dqdMeasure, hn, if_pos] at h
    split at h
    · simp at h
    next args ha =>
      obtain ⟨gate', h1, -, h2, -⟩ := line_scan_voltages hl h
      rw [textArg_of ((convert_lookup ha _).trans hg)] at h1
      cases h1
      have := h2 g hne hrf
      exact ⟨this, by rw [this]; exact fun h => h0 h.symm⟩
  · have hn' : ¬ m.name = "line_scan" := by rw [hn]; decide
    simp only [dqdMeasure, if_neg hn', if_pos hn] at h
    split at h
    · simp at h
    next args ha =>
      unfold pythonLineScan at h
      split at h
      · simp at h
      next scan hs =>
        rcases hr : lab.smrun v scan with ⟨x, r⟩
        simp only [hr, Prod.mk.injEq] at h
        obtain ⟨rfl, -, rfl⟩ := h
        have hsc : (∀ c ∈ scan.swept, IsRF c) ∧ scan.swept ≠ [] ∧
            scan.cleanup = [[("RFB", some 0), ("RFA", some 0)]] := by
          cases h1 : numArg args "center" with
          | error e => rw [h1] at hs; cases hs
          | ok c =>
          rw [h1] at hs
          cases h2 : numArg args "range" with
          | error e => rw [h2] at hs; cases hs
          | ok r =>
          rw [h2] at hs
          cases h5 : numArg args "N_average" with
          | error e => rw [h5] at hs; cases hs
          | ok na =>
          rw [h5] at hs
          cases h4 : numArg args "ramptime" with
          | error e => rw [h4] at hs; cases hs
          | ok rt =>
          rw [h4] at hs
          cases h3 : numArg args "N_points" with
          | error e => rw [h3] at hs; cases hs
          | ok np =>
          rw [h3, textArg_of ((convert_lookup ha _).trans hm)] at hs
          change detuneLineScan lab.awg c r na rt np "DecaDAC" = _ at hs
          simp only [detuneLineScan, if_pos] at hs
          cases hs
          exact ⟨by simp [Scan.swept, IsRF], by simp [Scan.swept], rfl⟩
        have := (rf_scan_voltages hl hr hsc.1 (Or.inl hsc.2.2)).2
        rcases this with h3 | h3
        · exact ⟨h3 g hrf, by rw [h3 g hrf]; exact fun h => h0 h.symm⟩
        · exact absurd h3.1 hsc.2.1

/-- An instrument on which the swept channels end at the last voltage of their sweep.  If
`fails`, the scan ends with an error before the cleanup functions are called. -/
noncomputable def sampleLab (fails : Bool) : Lab Unit where
  smrun v s :=
    let u := s.loops.foldl (fun v l => smset v (l.channels.map fun c => (c.1, some c.2.2))) v
    if fails then (u, .error (.other 2)) else (s.cleanup.foldl smset u, .ok ())
  awg _ _ := ⟨[], []⟩
  speed := 1
  lead _ := .ok [⟨[("RFB", 0, 0), ("RFA", 0, 0)], 1, 1⟩]
  load := ⟨[], []⟩

theorem sampleLab_moves (ls : List Loop) (v : Volts) (c : String)
    (hc : c ∉ (⟨ls, []⟩ : Scan).swept) :
    ls.foldl (fun v l => smset v (l.channels.map fun c => (c.1, some c.2.2))) v c = v c := by
  induction ls generalizing v with
  | nil => rfl
  | cons l ls ih =>
    simp only [Scan.swept, List.map_cons, List.flatten_cons, List.mem_append, not_or] at hc
    rw [List.foldl_cons, ih _ hc.2, smset_of_not_mem]
    simpa [Series.index, Function.comp_def] using hc.1

theorem sampleLab_proper (b : Bool) : (sampleLab b).Proper where
  runs v s := by
    refine ⟨_, fun c hc => sampleLab_moves s.loops v c hc, ?_⟩
    cases b
    · exact ⟨s.cleanup.length, by simp [sampleLab], fun _ _ => le_rfl⟩
    · exact ⟨0, by simp [sampleLab], fun d h => by simp [sampleLab] at h⟩
  awg _ _ := ⟨rfl, rfl⟩
  load := ⟨rfl, rfl⟩
  lead g loops h := by
    cases h
    simp [Scan.swept, IsRF]

/-- A scan of SDB2, as SensingDot1D orders it (evaluator.py:604-608). -/
noncomputable def sdbScan : Meas where
  name := "line_scan"
  options := [("center", .num (-0.5)), ("range", .num 4e-3), ("gate", .text "SDB2"),
    ("N_points", .num 1280), ("ramptime", .num 0.0005), ("N_average", .num 1),
    ("AWGorDecaDAC", .text "DecaDAC")]

/-- The default measurement of InterDotTCByLineScan (evaluator.py:358-359), by the DecaDAC. -/
noncomputable def detuneScan (mode : String) : Meas where
  name := "detune_scan"
  options := [("center", .num 0), ("range", .num 2e-3), ("N_points", .num 100),
    ("ramptime", .num 0.02), ("N_average", .num 5), ("AWGorDecaDAC", .text mode)]

theorem sdbScan_runs (b : Bool) (v : Volts) : dqdMeasure (sampleLab b) v sdbScan =
    pythonChargeLineScan (sampleLab b) v sdbScan.options := by
  simp [dqdMeasure, sdbScan, convert, numberNames, toNumber]

/-- A scan of a gate, then a scan of the detuning: the hypotheses can be met, with any voltages
before. -/
example (v : Volts) : ∃ w, Measured (sampleLab false) v [sdbScan, detuneScan "DecaDAC"] w := by
  have h1 : ∃ w s, dqdMeasure (sampleLab false) v sdbScan = (w, s, .ok ()) :=
    ⟨_, _, (sdbScan_runs false v).trans rfl⟩
  obtain ⟨w, s, h1⟩ := h1
  have h2 : ∃ x t, dqdMeasure (sampleLab false) w (detuneScan "DecaDAC") = (x, t, .ok ()) := by
    simp [dqdMeasure, detuneScan, convert, numberNames, toNumber, pythonLineScan, numArg, textArg,
      List.lookup, detuneLineScan, bind, Except.bind, sampleLab]
  obtain ⟨x, t, h2⟩ := h2
  exact ⟨x, .cons h1 (.cons h2 (.nil _))⟩

/-- A scan that fails leaves the swept gate where it is. -/
theorem failed_scan_refuted : ∃ (lab : Lab Unit) (v w : Volts) (m : Meas) (scans : List Scan)
    (e : PyErr), lab.Proper ∧ dqdMeasure lab v m = (w, scans, .error e) ∧
      m.name = "line_scan" ∧ HasText m "gate" "SDB2" ∧ w "SDB2" ≠ v "SDB2" := by
  refine ⟨sampleLab true, fun _ => some (-0.5), _, sdbScan, _, _, sampleLab_proper true,
    (sdbScan_runs true _).trans rfl, rfl, rfl, ?_⟩
  have h : (fun (_ : String) => (some (-0.5) : Val)) "SDB2" = some (-0.5) := rfl
  simp [smset, chargeLineScan]
  norm_num

end Qtune.Matlab
