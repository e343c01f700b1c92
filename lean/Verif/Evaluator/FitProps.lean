import Verif.Evaluator.FitLemmas

/-!
# Properties of the evaluators that fit curves: failing fits, names of the results, recalculation and ranges
(C113, C114, C115, C118)
-/

namespace Qtune.Evaluator.Fit

open Classical

/-! ## C113: failing fits -/

/-- C113 (partial): if the fit does not converge, `InterDotTCByLineScan` and `NewLoadTime` return NaN as value and as
error, and store NaN as fit result.  Neither of them ever raises `RuntimeError` for data that was measured.  Missing:
the evaluators of the tunnel times (`failed_fit_refuted`) and data that contains NaN (`nan_data_refuted`). -/
theorem failed_fit_partial (N : Numerics) :
    (NeverConverges N → ∀ (ev : InterDot) (n : Nat) (data : NdArray), 3 ≤ n → LineScan n data →
      none ∉ data.entries → ∃ ev' v e f, ev.evaluate N (.ok data) = (ev', .ok (v, e)) ∧
        v.index = ["parameter_tunnel_coupling"] ∧ e.index = ["parameter_tunnel_coupling"] ∧ AllNan v ∧ AllNan e ∧
        ev'.fitResults = some f ∧ AllNan f) ∧
    (NeverConverges N → ∀ (ev : LoadTime) (n : Nat) (data : NdArray), 1 ≤ n → TwoLines n data →
      none ∉ data.entries → ∃ ev' v e f, ev.evaluate N (.ok data) = (ev', .ok (v, e)) ∧
        v.index = ["parameter_time_load"] ∧ e.index = ["parameter_time_load"] ∧ AllNan v ∧ AllNan e ∧
        ev'.fitResults = some f ∧ AllNan f) ∧
    (∀ (ev : InterDot) data msg, (ev.evaluate N (.ok data)).2 ≠ .error (.runtimeError msg)) ∧
    (∀ (ev : LoadTime) data msg, (ev.evaluate N (.ok data)).2 ≠ .error (.runtimeError msg)) := by
  refine ⟨?_, ?_, ?_, ?_⟩
  · intro hN ev n data hn hd hne
    obtain ⟨P, hP, hfit⟩ := interDotFit_first N
      (x := linspaceList (ev.center - ev.range) (ev.center + ev.range) n) (y := data.averaged)
      (by rw [linspaceList_length]; exact hn) (by rw [linspaceList_length, averaged_length hd])
    obtain ⟨msg, hmsg⟩ := hN P (hP ▸ averaged_present hd hne)
    have := hfit _ hmsg
    have hmap : (linspaceList (ev.center - ev.range) (ev.center + ev.range) n).map
        ((fun v => Option.getD v 0) ∘ some) = linspaceList (ev.center - ev.range) (ev.center + ev.range) n := by
      simp [Function.comp_def]
    cases data with
    | d1 l =>
      obtain rfl : l.length = n := hd
      refine ⟨{ ev with
          fitResults := some (nans interDotLabels), rawX := ev.points l.length, rawY := .array (.d1 l) },
        nans ["parameter_tunnel_coupling"], nans ["parameter_tunnel_coupling"], nans interDotLabels, ?_, rfl, rfl,
        ?_, ?_, rfl, ?_⟩
      · simp only [InterDot.evaluate, InterDot.finish, InterDot.points, interDotProcess, List.map_map, hmap]
        simp only [NdArray.averaged] at this
        rw [this]
      all_goals simp [AllNan, nans]
    | d2 w rows =>
      obtain ⟨rfl, -, -⟩ := hd
      refine ⟨{ ev with
          fitResults := some (nans interDotLabels), rawX := ev.points w, rawY := .array (.d2 w rows) },
        nans ["parameter_tunnel_coupling"], nans ["parameter_tunnel_coupling"], nans interDotLabels, ?_, rfl, rfl,
        ?_, ?_, rfl, ?_⟩
      · simp only [InterDot.evaluate, InterDot.finish, InterDot.points, interDotProcess, List.map_map, hmap]
        rw [this]
      all_goals simp [AllNan, nans]
    | more => exact hd.elim
  · intro hN ev n data hn hd hne
    obtain ⟨y, x, rfl, hy, hx⟩ := hd
    have hy0 : y ≠ [] := by rintro rfl; simp at hy; omega
    obtain ⟨P, hP, -, hfit⟩ := loadProcess_first N ev.initialCurvature ev.startCurvature (n := n) (x := x) hy0
    obtain ⟨msg, hmsg⟩ := hN P (by
      rw [hP]; intro h; exact hne (by simp [NdArray.entries, h]))
    refine ⟨{ ev with fitResults := some (nans loadLabels), rawY := .array (.d1 y), rawX := .array (.d1 x) },
      nans ["parameter_time_load"], nans ["parameter_time_load"], nans loadLabels, ?_, rfl, rfl, ?_, ?_, rfl, ?_⟩
    · simp only [LoadTime.evaluate, hfit _ hmsg]
      rfl
    all_goals simp [AllNan, nans]
  · intro ev data msg h
    cases data <;> simp only [InterDot.evaluate, InterDot.finish] at h
    · split at h <;> simp_all
    · split at h <;> simp_all
    · simp at h
  · intro ev data msg h
    have hrow : ∀ k, (Raw.array data).row k ≠ .error (.runtimeError msg) := by
      intro k h
      cases data <;> simp [Raw.row] at h
      split at h <;> simp at h
    simp only [LoadTime.evaluate] at h
    split at h
    next e he =>
      split at he <;> simp_all
    next => split at h <;> simp_all

/-- C113 is false of the evaluators of the tunnel times: if the fit does not converge, both raise `RuntimeError`, for
all data with at least three points.  (`LeadTunnelTimeByLeadScan` needs two points after those at which the signal is
expected to rise and to fall, otherwise it raises `IndexError`.) -/
theorem failed_fit_refuted (N : Numerics) (hN : NeverConverges N) (ev : LeadTime) (n : Nat) (data : NdArray)
    (hn : 3 ≤ n) (hd : TwoLines n data) (hne : none ∉ data.entries) :
    (∃ msg, (prefitEvaluate N (.ok data) ev).2 = .error (.runtimeError msg)) ∧
    (0 ≤ pyRound (ev.start.beginRise / 10e-9) → pyRound (ev.start.beginRise / 10e-9) + 2 < n →
      0 ≤ pyRound (ev.start.beginFall / 10e-9) → pyRound (ev.start.beginFall / 10e-9) + 2 < n →
      ∃ msg, (scanEvaluate N (.ok data) ev).2 = .error (.runtimeError msg)) := by
  obtain ⟨a, b, rfl, ha, hb⟩ := hd
  have hy : none ∉ b.zipWith Val.sub a :=
    zipWith_sub_present (fun h => hne (by simp [NdArray.entries, h])) (fun h => hne (by simp [NdArray.entries, h]))
  constructor
  · obtain ⟨P, hP, hfit⟩ := prefit_first N ev.sampleRate ev.start hn ha hb
    obtain ⟨msg, hmsg⟩ := hN P (hP ▸ hy)
    refine ⟨msg, ?_⟩
    simp only [prefitEvaluate, LeadTime.evaluate, difference_two, hfit _ hmsg]
  · intro h0 h1 h2 h3
    obtain ⟨P, hP, hfit⟩ := scan_first N ev.sampleRate ev.start hn ha hb h0 h1 h2 h3
    obtain ⟨msg, hmsg⟩ := hN P (hP ▸ hy)
    refine ⟨msg, ?_⟩
    simp only [scanEvaluate, LeadTime.evaluate, difference_two, hfit, hmsg]

/-- C113 is false of data that contains NaN: all four evaluators raise `ValueError`, which no `except` clause
catches. -/
theorem nan_data_refuted (N : Numerics) (hN : N.Spec) :
    (∀ (ev : InterDot) (l : List Val), 3 ≤ l.length → none ∈ l →
      (ev.evaluate N (.ok (.d1 l))).2 = .error .valueError) ∧
    (∀ (ev : LoadTime) (y x : List Val), none ∈ y →
      (ev.evaluate N (.ok (.d2 y.length [y, x]))).2 = .error .valueError) ∧
    (∀ (ev : LeadTime) (n : Nat) (a b : List Val), 3 ≤ n → a.length = n → b.length = n →
      none ∈ b.zipWith Val.sub a → (prefitEvaluate N (.ok (.d2 n [a, b])) ev).2 = .error .valueError) := by
  refine ⟨?_, ?_, ?_⟩
  · intro ev l hl hne
    obtain ⟨P, hP, hfit⟩ := interDotFit_first N
      (x := linspaceList (ev.center - ev.range) (ev.center + ev.range) l.length) (y := l)
      (by rw [linspaceList_length]; exact hl) (by rw [linspaceList_length])
    have := hfit _ (hN.nan P (hP ▸ hne))
    have hmap : (linspaceList (ev.center - ev.range) (ev.center + ev.range) l.length).map
        ((fun v => Option.getD v 0) ∘ some) =
        linspaceList (ev.center - ev.range) (ev.center + ev.range) l.length := by
      simp [Function.comp_def]
    simp only [InterDot.evaluate, InterDot.finish, InterDot.points, interDotProcess, List.map_map, hmap]
    rw [this]
  · intro ev y x hne
    obtain ⟨P, hP, -, hfit⟩ := loadProcess_first N ev.initialCurvature ev.startCurvature (n := y.length) (x := x)
      (List.ne_nil_of_mem hne)
    simp only [LoadTime.evaluate, hfit _ (hN.nan P (hP ▸ hne))]
  · intro ev n a b hn ha hb hne
    obtain ⟨P, hP, hfit⟩ := prefit_first N ev.sampleRate ev.start hn ha hb
    simp only [prefitEvaluate, LeadTime.evaluate, difference_two, hfit _ (hN.nan P (hP ▸ hne))]

/-- A fit routine that never converges. -/
noncomputable def hopeless : Numerics where
  curveFit P := if none ∈ P.y then .error .valueError else .error (.runtimeError "Optimal parameters not found")
  polyfit _ _ := (some 0, some 0)

example : hopeless.Spec ∧ NeverConverges hopeless := by
  refine ⟨⟨fun P h => by simp [hopeless, h], ?_, ?_, ?_⟩, fun P h => ⟨_, by simp [hopeless, h]; rfl⟩⟩ <;>
  · intro P r h
    simp only [hopeless] at h
    split at h <;> cases h

example : LineScan 4 (.d2 4 [[some 0, some 0, some 1, some 1], [some 0, some 1, some 1, some 1]]) ∧
    TwoLines 3 (.d2 3 [[some 0, some 1, some 0], [some 0, some 0, some 1]]) :=
  ⟨⟨rfl, by simp, by simp⟩, _, _, rfl, rfl, rfl⟩

/-! ## C114: names of the results -/

/-- What `evaluate` of one of the four evaluators returns: the evaluator was created with the names `parameters`, the
default of its class is `default`. -/
inductive Returns (N : Numerics) : (parameters default : List String) → Series × Series → Prop
  | interDot (ev : InterDot) (m r) : (ev.evaluate N m).2 = .ok r →
      Returns N ev.parameters ["parameter_tunnel_coupling"] r
  | loadTime (ev : LoadTime) (m r) : (ev.evaluate N m).2 = .ok r → Returns N ev.parameters ["parameter_time_load"] r
  | prefit (ev : LeadTime) (m r) : (prefitEvaluate N m ev).2 = .ok r →
      Returns N ev.parameters ["parameter_time_rise", "parameter_time_fall"] r
  | scan (ev : LeadTime) (m r) : (scanEvaluate N m ev).2 = .ok r →
      Returns N ev.parameters ["parameter_time_rise", "parameter_time_fall"] r

theorem returns_default {N : Numerics} {p d : List String} {r : Series × Series} (h : Returns N p d r) :
    r.1.index = d ∧ r.2.index = d := by
  have lead : ∀ (ev : LeadTime) labels process next m r, (ev.evaluate labels process next m).2 = .ok r →
      ∃ popt, r = leadReport popt := by
    intro ev labels process next m r h
    unfold LeadTime.evaluate at h
    split at h
    · cases h
    · split at h
      · cases h
      · dsimp only at h
        split at h
        · cases h
        · cases h; exact ⟨_, rfl⟩
  cases h with
  | interDot ev m _ h =>
    cases m with
    | error e => cases h
    | ok data =>
      cases data <;> simp only [InterDot.evaluate, InterDot.finish] at h
      · split at h <;> cases h <;> exact ⟨rfl, rfl⟩
      · split at h <;> cases h <;> exact ⟨rfl, rfl⟩
      · cases h; exact ⟨rfl, rfl⟩
  | loadTime ev m _ h =>
    cases m with
    | error e => cases h
    | ok data =>
      simp only [LoadTime.evaluate] at h
      split at h
      · cases h
      · split at h <;> cases h
        exact ⟨rfl, rfl⟩
  | prefit ev m _ h => obtain ⟨p, rfl⟩ := lead _ _ _ _ _ _ h; exact ⟨rfl, rfl⟩
  | scan ev m _ h => obtain ⟨p, rfl⟩ := lead _ _ _ _ _ _ h; exact ⟨rfl, rfl⟩

/-- C114 (partial): if an evaluator is created with the default names, value and error are labelled by the names that
its property `parameters` returns.  Missing: other names, see `fit_names_refuted`. -/
theorem fit_names_partial {N : Numerics} {p d : List String} {r : Series × Series} (h : Returns N p d r) (hp : p = d) :
    r.1.index = p ∧ r.2.index = p := hp ▸ returns_default h

/-- C114 is false: if an evaluator is created with other names than the default ones, neither value nor error is
labelled by them, whatever was measured. -/
theorem fit_names_refuted {N : Numerics} {p d : List String} {r : Series × Series} (h : Returns N p d r)
    (hp : p ≠ d) : r.1.index ≠ p ∧ r.2.index ≠ p := by
  obtain ⟨h1, h2⟩ := returns_default h
  exact ⟨fun h => hp (h ▸ h1), fun h => hp (h ▸ h2)⟩

/-! ## C115: recalculation from the stored data -/

/-- C115 (partial): `process_raw_data(raw_data)` of `InterDotTCByLineScan` repeats the calculation of the last
`evaluate` with the data that was stored: it returns the same fit result and residual, or raises `RuntimeError` if
`evaluate` reported a failed fit.  Missing: the other evaluators, see `recalculation_refuted`. -/
theorem recalculation_partial (N : Numerics) (ev ev' : InterDot) (data : NdArray) (hd : data ≠ .more) (v e : Series)
    (h : ev.evaluate N (.ok data) = (ev', .ok (v, e))) :
    match interDotProcess N (.pair ev'.rawX ev'.rawY) with
    | .ok (popt, residual) => ev'.fitResults = some (interDotLabels.zip (popt.map some)) ∧
        v = [("parameter_tunnel_coupling", some (popt.getD 4 0))] ∧ e = [("parameter_tunnel_coupling", residual)]
    | .error err => (∃ msg, err = .runtimeError msg) ∧ AllNan v ∧ AllNan e := by
  have fin : ∀ ev0 : InterDot, ev0.finish N = (ev', Except.ok (v, e)) →
      match interDotProcess N (.pair ev'.rawX ev'.rawY) with
      | .ok (popt, residual) => ev'.fitResults = some (interDotLabels.zip (popt.map some)) ∧
          v = [("parameter_tunnel_coupling", some (popt.getD 4 0))] ∧ e = [("parameter_tunnel_coupling", residual)]
      | .error err => (∃ msg, err = .runtimeError msg) ∧ AllNan v ∧ AllNan e := by
    intro ev0 h0
    unfold InterDot.finish at h0
    split at h0
    next msg hp =>
      simp only [Prod.mk.injEq, Except.ok.injEq] at h0
      obtain ⟨rfl, rfl, rfl⟩ := h0
      rw [hp]
      exact ⟨⟨_, rfl⟩, by simp [AllNan, nans], by simp [AllNan, nans]⟩
    next => simp at h0
    next popt residual hp =>
      simp only [Prod.mk.injEq, Except.ok.injEq] at h0
      obtain ⟨rfl, rfl, rfl⟩ := h0
      rw [hp]
      exact ⟨rfl, rfl, rfl⟩
  cases data with
  | more => exact absurd rfl hd
  | d1 l => exact fin _ h
  | d2 w rows => exact fin _ h

/-- C115 is false of the other evaluators: after every `evaluate` that returned, `process_raw_data` cannot be applied
to the stored data.  `NewLoadTime` and `LeadTunnelTimeByLeadScan` raise `TypeError` (a tuple is indexed like an array),
`LeadTunnelTimePrefitVersion` `IndexError` (the points are used as if they were the data). -/
theorem recalculation_refuted (N : Numerics) :
    (∀ (ev ev' : LoadTime) m r, ev.evaluate N m = (ev', .ok r) →
      ∀ c c', loadProcess N c c' (.pair ev'.rawX ev'.rawY) = .error .typeError) ∧
    (∀ (ev ev' : LeadTime) m r, prefitEvaluate N m ev = (ev', .ok r) → prefitAgain N ev' = .error .indexError) ∧
    (∀ (ev ev' : LeadTime) m r, scanEvaluate N m ev = (ev', .ok r) → scanAgain N ev' = .error .typeError) := by
  refine ⟨fun ev ev' m r _ c c' => rfl, ?_, fun ev ev' m r _ => rfl⟩
  intro ev ev' m r h
  have hx : ∃ l, ev'.rawX = .array (.d1 l) := by
    unfold prefitEvaluate LeadTime.evaluate at h
    split at h
    · cases h
    · split at h
      · cases h
      · dsimp only at h
        split at h
        · cases h
        · cases h; exact ⟨_, rfl⟩
  obtain ⟨l, hl⟩ := hx
  unfold prefitAgain
  rw [hl]
  rfl

/-! ## C118: ranges -/

/-- C118: the time that `NewLoadTime` reports is NaN or lies between 2 and 300.  The tunnel times that the other two
evaluators report are not negative, and their errors are a fifth of them. -/
theorem fitted_times (N : Numerics) (hN : N.Spec) :
    (∀ (ev : LoadTime) m v e, (ev.evaluate N m).2 = .ok (v, e) →
      v.val "parameter_time_load" = none ∨
      ∃ t : ℝ, v.val "parameter_time_load" = some t ∧ 2 ≤ t ∧ t ≤ 300) ∧
    (∀ (ev : LeadTime) m v e, (prefitEvaluate N m ev).2 = .ok (v, e) ∨ (scanEvaluate N m ev).2 = .ok (v, e) →
      ∀ p ∈ ["parameter_time_rise", "parameter_time_fall"],
        ∃ t : ℝ, v.val p = some t ∧ 0 ≤ t ∧ e.val p = some (t / 5)) := by
  constructor
  · intro ev m v e h
    cases m with
    | error err => cases h
    | ok data =>
      have key : ∀ c c' raw popt res s, loadProcess N c c' raw = .ok (popt, res, s) →
          popt.length = 3 ∧ 2 ≤ popt.getD 2 0 ∧ popt.getD 2 0 ≤ 300 := by
        intro c c' raw popt res s hp
        unfold loadProcess at hp
        split at hp
        · cases hp
        · cases hp
        · dsimp only at hp
          split at hp
          · cases hp
          · split at hp
            · cases hp
            · cases hp
            · split at hp
              · cases hp
              next q hq =>
                have fin : ∀ (P : Problem) q, N.curveFit P = .ok q → P.p0.length = 3 →
                    P.lower = [⊥, ⊥, ((2 : ℝ) : EReal)] → P.upper = [⊤, ⊤, ((300 : ℝ) : EReal)] →
                    q.length = 3 ∧ 2 ≤ q.getD 2 0 ∧ q.getD 2 0 ≤ 300 := by
                  intro P q hq h0 hl hu
                  have hs := hN.size P q hq
                  have h1 := hN.lower P q hq 2 (2 : ℝ) (by rw [hl]; rfl) (by omega)
                  have h2 := hN.upper P q hq 2 (300 : ℝ) (by rw [hu]; rfl) (by omega)
                  exact ⟨by omega, EReal.coe_le_coe_iff.1 h1, EReal.coe_le_coe_iff.1 h2⟩
                split at hp
                · split at hp
                  · cases hp
                  next q' hq' => cases hp; exact fin _ _ hq' rfl rfl rfl
                · cases hp; exact fin _ _ hq rfl rfl rfl
      simp only [LoadTime.evaluate] at h
      split at h
      · cases h
      next result residual c hfit =>
        split at h <;> cases h
        show result.val "curvature" = none ∨ ∃ t : ℝ, result.val "curvature" = some t ∧ 2 ≤ t ∧ t ≤ 300
        split at hfit
        · cases hfit; left; rfl
        · cases hfit
        next popt res s hp =>
          cases hfit
          obtain ⟨h0, h1, h2⟩ := key _ _ _ _ _ _ hp
          match popt, h0, h1, h2 with
          | [a, b, t], _, h1, h2 => exact Or.inr ⟨t, rfl, h1, h2⟩
  · intro ev m v e h
    have fin : ∀ (P : Problem) q rest rest', N.curveFit P = .ok q → 6 ≤ P.p0.length →
        P.lower = [⊥, 0, 0] ++ rest → P.upper = rest' → 0 ≤ q.getD 1 0 ∧ 0 ≤ q.getD 2 0 := by
      intro P q rest rest' hq h0 hl _
      have hs := hN.size P q hq
      have h1 := hN.lower P q hq 1 0 (by rw [hl]; rfl) (by omega)
      have h2 := hN.lower P q hq 2 0 (by rw [hl]; rfl) (by omega)
      exact ⟨EReal.coe_nonneg.1 h1, EReal.coe_nonneg.1 h2⟩
    have start : ∀ s y p, leadStart s y = .ok p → p.length = 6 := by
      intro s y p hp
      unfold leadStart at hp
      split at hp <;> cases hp
      rfl
    have lead : ∀ (ev : LeadTime) labels process next m, (∀ raw q, process raw = .ok q → 0 ≤ q.getD 1 0 ∧ 0 ≤ q.getD 2 0) →
        (ev.evaluate labels process next m).2 = .ok (v, e) → ∃ q, 0 ≤ q.getD 1 0 ∧ 0 ≤ q.getD 2 0 ∧ (v, e) = leadReport q := by
      intro ev labels process next m hpr h
      unfold LeadTime.evaluate at h
      split at h
      · cases h
      · split at h
        · cases h
        · dsimp only at h
          split at h
          · cases h
          next q hq => cases h; exact ⟨q, (hpr _ _ hq).1, (hpr _ _ hq).2, rfl⟩
    have hq : ∃ q, 0 ≤ q.getD 1 0 ∧ 0 ≤ q.getD 2 0 ∧ (v, e) = leadReport q := by
      rcases h with h | h
      · refine lead _ _ _ _ _ ?_ h
        intro raw q hq
        unfold prefitProcess at hq
        split at hq
        · cases hq
        · dsimp only at hq
          split at hq
          · cases hq
          next p0 hp0 =>
            split at hq
            · cases hq
            next q' hq' =>
              have := hN.size _ _ hq'
              have hl := start _ _ _ hp0
              exact fin _ _ _ _ hq (by simp only [List.length_map]; simp only at this; omega) rfl rfl
      · refine lead _ _ _ _ _ ?_ h
        intro raw q hq
        unfold scanProcess at hq
        split at hq
        · cases hq
        · dsimp only at hq
          split at hq
          · cases hq
          next p0 hp0 =>
            have hl := start _ _ _ hp0
            split at hq
            · cases hq
            · split at hq
              · cases hq
              · exact fin _ _ _ _ hq (by simp only [List.length_append]; omega) rfl rfl
    obtain ⟨q, h1, h2, hr⟩ := hq
    simp only [leadReport, Prod.mk.injEq] at hr
    obtain ⟨rfl, rfl⟩ := hr
    intro p hp
    simp only [List.mem_cons, List.not_mem_nil, or_false] at hp
    rcases hp with rfl | rfl
    · exact ⟨_, rfl, h2, rfl⟩
    · exact ⟨_, rfl, h1, rfl⟩

/-- A fit routine that finds some parameters within the bounds whenever there are any. -/
noncomputable def ideal : Numerics where
  curveFit P :=
    if none ∈ P.y then .error .valueError
    else if h : ∃ r : List ℝ, r.length = P.p0.length ∧
        (∀ (i : Nat) (b : EReal), P.lower[i]? = some b → i < r.length → b ≤ (r.getD i 0 : ℝ)) ∧
        (∀ (i : Nat) (b : EReal), P.upper[i]? = some b → i < r.length → (r.getD i 0 : ℝ) ≤ b)
      then .ok h.choose
    else .error .valueError
  polyfit _ _ := (some 0, some 0)

theorem ideal_spec : ideal.Spec := by
  have key : ∀ P r, ideal.curveFit P = .ok r → r.length = P.p0.length ∧
        (∀ (i : Nat) (b : EReal), P.lower[i]? = some b → i < r.length → b ≤ (r.getD i 0 : ℝ)) ∧
        (∀ (i : Nat) (b : EReal), P.upper[i]? = some b → i < r.length → (r.getD i 0 : ℝ) ≤ b) := by
    intro P r h
    simp only [ideal] at h
    split at h
    · cases h
    · split at h
      next h' => cases h; exact h'.choose_spec
      · cases h
  exact ⟨fun P h => by simp [ideal, h], fun P r h => (key P r h).1, fun P r h => (key P r h).2.1,
    fun P r h => (key P r h).2.2⟩

/-- It succeeds for `NewLoadTime`. -/
example (ev : LoadTime) : ∃ r, (ev.evaluate ideal (.ok (.d2 2 [[some 1, some 0], [some 10, some 20]]))).2 = .ok r := by
  have hfit : ∀ P : Problem, none ∉ P.y → P.p0.length = 3 → P.lower = [⊥, ⊥, ((2 : ℝ) : EReal)] →
      P.upper = [⊤, ⊤, ((300 : ℝ) : EReal)] → ∃ r, ideal.curveFit P = .ok r := by
    intro P h1 h2 h3 h4
    have : ∃ r : List ℝ, r.length = P.p0.length ∧
        (∀ (i : Nat) (b : EReal), P.lower[i]? = some b → i < r.length → b ≤ (r.getD i 0 : ℝ)) ∧
        (∀ (i : Nat) (b : EReal), P.upper[i]? = some b → i < r.length → (r.getD i 0 : ℝ) ≤ b) := by
      refine ⟨[0, 1, 100], by rw [h2]; rfl, ?_, ?_⟩
      · rw [h3]
        intro i b hb hi
        match i, hi with
        | 0, _ => cases hb; exact bot_le
        | 1, _ => cases hb; exact bot_le
        | 2, _ => cases hb; exact EReal.coe_le_coe_iff.2 (by norm_num)
      · rw [h4]
        intro i b hb hi
        match i, hi with
        | 0, _ => cases hb; exact le_top
        | 1, _ => cases hb; exact le_top
        | 2, _ => cases hb; exact EReal.coe_le_coe_iff.2 (by norm_num)
    exact ⟨_, by simp only [ideal, if_neg h1, dif_pos this]; rfl⟩
  have hproc : ∃ r, loadProcess ideal ev.initialCurvature ev.startCurvature
      (.array (.d2 2 [[some 1, some 0], [some 10, some 20]])) = .ok r := by
    obtain ⟨r, hr⟩ := hfit ⟨fun p => loadModel (p.getD 0 0) (p.getD 1 0) (p.getD 2 0),
      [(present [some 1, some 0]).min?, some (1 - 0), some ev.initialCurvature], none, [⊥, ⊥, ((2 : ℝ) : EReal)],
      [⊤, ⊤, ((300 : ℝ) : EReal)], [10, 20], [some 1, some 0]⟩ (by simp) rfl rfl rfl
    have h2 := ideal_spec.lower _ _ hr 2 (2 : ℝ) rfl (by rw [ideal_spec.size _ _ hr]; simp)
    have h2' : ¬ r.getD 2 0 < 0 := by have := EReal.coe_le_coe_iff.1 h2; linarith
    have h0 : pyIndex [some (1 : ℝ), some 0] 0 = .ok (some 1) := rfl
    have h1 : pyIndex [some (1 : ℝ), some 0] (-1) = .ok (some 0) := rfl
    unfold loadProcess
    simp only [Raw.row, List.getElem?_cons_succ, List.getElem?_cons_zero, nanmin, reduceCtorEq, if_false, h0, h1]
    erw [hr]
    simp only [if_neg h2']
    exact ⟨_, rfl⟩
  obtain ⟨⟨a, b, c⟩, hr⟩ := hproc
  simp only [LoadTime.evaluate, hr]
  exact ⟨_, rfl⟩

/-- And for `InterDotTCByLineScan`: there are cases in which `recalculation_partial` speaks of a fit result. -/
example : ∃ ev' t r, (InterDot.mk ["parameter_tunnel_coupling"] 0 1 none .none .none).evaluate ideal
    (.ok (.d1 [some 0, some 0, some 1])) = (ev', .ok ([("parameter_tunnel_coupling", some t)], r)) := by
  have hfit : ∀ P : Problem, none ∉ P.y → P.lower = [] → P.upper = [] → ∃ r, ideal.curveFit P = .ok r := by
    intro P h1 h2 h3
    have : ∃ r : List ℝ, r.length = P.p0.length ∧
        (∀ (i : Nat) (b : EReal), P.lower[i]? = some b → i < r.length → b ≤ (r.getD i 0 : ℝ)) ∧
        (∀ (i : Nat) (b : EReal), P.upper[i]? = some b → i < r.length → (r.getD i 0 : ℝ) ≤ b) :=
      ⟨List.replicate P.p0.length 0, by simp, by simp [h2], by simp [h3]⟩
    exact ⟨_, by simp only [ideal, if_neg h1, dif_pos this]; rfl⟩
  have hproc : ∃ r, interDotFit ideal [-1, 0, 1] [some 0, some 0, some 1] = .ok r := by
    obtain ⟨q1, q2⟩ := quarter (n := 3) le_rfl
    unfold interDotFit Numerics.line
    simp only [List.length_cons, List.length_nil]
    norm_num only at q1 q2 ⊢
    generalize (pyRound (3 / 4)).toNat = q at *
    have l1 : [(-1 : ℝ), 0, 1].take q ≠ [] := by
      intro h; have := congrArg List.length h; rw [List.length_take] at this; simp at this; omega
    have l2 : [(-1 : ℝ), 0, 1].drop (3 - q) ≠ [] := by
      intro h; have := congrArg List.length h; rw [List.length_drop] at this; simp at this; omega
    have q0 : ¬ q = 0 := by omega
    simp only [if_neg q0, List.length_cons, List.length_nil, Nat.zero_add, Nat.reduceAdd, if_neg l1, if_neg l2]
    generalize ideal.polyfit ([(-1 : ℝ), 0, 1].drop (3 - q)) ([some (0 : ℝ), some 0, some 1].drop (3 - q)) = stop
    obtain ⟨i, hi⟩ := leadIndex_ok (d := ([(-1 : ℝ), 0, 1].zip ([some 0, some 0, some 1] : List Val)).map fun xy =>
      Option.getD ((Val.sub (Val.sub xy.2 stop.2) (stop.1.mul (some xy.1)))) 0) (w := 0) (by simp)
    rw [hi]
    dsimp only
    split
    next he => exact absurd he (by
      intro he
      rw [(hfit _ (by simp) rfl rfl).choose_spec] at he
      cases he)
    next popt _ =>
      split
      next h => norm_num at h
      next =>
        split
        next he => exact absurd he (by
          intro he
          rw [(hfit _ (by simp) rfl rfl).choose_spec] at he
          cases he)
        next => exact ⟨_, rfl⟩
  have hpts : linspaceList (0 - 1) (0 + 1) 3 = [-1, 0, 1] := by
    simp [linspaceList, List.range_succ]; norm_num
  obtain ⟨⟨a, b⟩, hr⟩ := hproc
  refine ⟨{
      parameters := ["parameter_tunnel_coupling"], center := 0, range := 1
      fitResults := some (interDotLabels.zip (a.map some)), rawY := .array (.d1 [some 0, some 0, some 1])
      rawX := .array (.d1 ([-1, 0, 1].map some)) }, a.getD 4 0, [("parameter_tunnel_coupling", b)], ?_⟩
  simp only [InterDot.evaluate, InterDot.finish, InterDot.points, interDotProcess, List.length_cons, List.length_nil,
    Nat.zero_add, Nat.reduceAdd, hpts, List.map_cons, List.map_nil, Option.getD_some, hr]

end Qtune.Evaluator.Fit
