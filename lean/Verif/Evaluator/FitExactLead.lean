import Verif.Evaluator.FitExactProps

/-!
# Fits of exact data: the tunnel times (C143)
-/

namespace Qtune.Evaluator.Fit

open Classical

theorem leadStart_exact (s : Start) {y : List Val} (hy : 3 ≤ y.length) (hn : none ∉ y) :
    ∃ a b : ℝ, leadStart s y = .ok ([a, s.tFall, s.tRise, s.beginRise, s.beginFall, b].map some) := by
  obtain ⟨p, hp, -⟩ := leadStart_ok s hy
  unfold leadStart at hp ⊢
  cases h1 : pyIndex y (pyRound (1 / 4 * y.length)) with
  | error e => rw [h1] at hp; cases hp
  | ok v1 =>
    cases h2 : pyIndex y (pyRound (3 / 4 * y.length)) with
    | error e => rw [h1, h2] at hp; cases hp
    | ok v2 =>
      obtain ⟨r1, rfl⟩ := isSome_of_notMem hn (pyIndex_mem h1)
      obtain ⟨r2, rfl⟩ := isSome_of_notMem hn (pyIndex_mem h2)
      refine ⟨r1 - r2, (present y).sum / (present y).length, ?_⟩
      have : npMean y = some ((present y).sum / (present y).length) := by
        unfold npMean
        rw [if_neg]
        rintro (h | h)
        · exact hn h
        · rw [h] at hy; simp at hy
      simp [this]

theorem lineOf_length (n : Nat) (f : Nat → ℝ) : (lineOf n f).length = n := by simp [lineOf]

theorem lineOf_sub (n : Nat) (f g : Nat → ℝ) :
    (lineOf n f).zipWith Val.sub (lineOf n g) = lineOf n fun j => f j - g j := by
  unfold lineOf
  rw [List.zipWith_map_left, List.zipWith_map_right, List.zipWith_self]
  simp

theorem times_last (n : Nat) (hn : 1 ≤ n) (rate : ℝ) :
    ((List.range n).map fun (i : Nat) => (i : ℝ) / rate).getLastD 0 = ((n : ℝ) - 1) / rate := by
  obtain ⟨k, rfl⟩ : ∃ k, n = k + 1 := ⟨n - 1, by omega⟩
  rw [List.range_succ]
  simp

/-- The fits of `LeadTunnelTimePrefitVersion`; what the fit routine prefers (`Q`) is reported. -/
theorem prefit_core {N : Numerics} (hN : N.Exact) (ev : LeadTime) (h1 : 0 ≤ ev.start.tFall)
    (h2 : 0 ≤ ev.start.tRise) {n : Nat} (hn : 3 ≤ n) (base signal : Nat → ℝ)
    {height tFall tRise beginRise beginFall offset : ℝ} (hf : 0 ≤ tFall) (hr : 0 ≤ tRise)
    (hd : ∀ j < n, signal j - base j = leadTimes1 height tFall tRise beginRise beginFall offset
      (((n : ℝ) - 1) / ev.sampleRate) (j / ev.sampleRate)) (Q : List ℝ → Prop)
    (hQ : ∀ (P : Problem) (r : List ℝ), (P.model = fun p t => leadTimes1 (p.getD 0 0) (p.getD 1 0) (p.getD 2 0) (p.getD 3 0)
        (p.getD 4 0) (p.getD 5 0) (((n : ℝ) - 1) / ev.sampleRate) t) → P.p0.length = 6 → P.lower = [⊥, 0, 0, ⊥, ⊥, ⊥] →
      P.upper = [⊤, ⊤, ⊤, ⊤, ⊤, ⊤] → P.x = ((List.range n).map fun (i : Nat) => (i : ℝ) / ev.sampleRate) →
      P.y = lineOf n (fun j => signal j - base j) → N.curveFit P = .ok r → Q r) :
    ∃ ev' height' tFall' tRise' beginRise' beginFall' offset',
      prefitEvaluate N (.ok (.d2 n [lineOf n base, lineOf n signal])) ev = (ev', .ok
        ([("parameter_time_rise", some tRise'), ("parameter_time_fall", some tFall')],
          [("parameter_time_rise", some (tRise' / 5)), ("parameter_time_fall", some (tFall' / 5))])) ∧
      0 ≤ tFall' ∧ 0 ≤ tRise' ∧
      (∀ j < n, signal j - base j = leadTimes1 height' tFall' tRise' beginRise' beginFall' offset'
        (((n : ℝ) - 1) / ev.sampleRate) (j / ev.sampleRate)) ∧
      ev'.start = ⟨tFall', tRise', beginRise', beginFall'⟩ ∧
      ev'.fitResults = some [("height", some height'), ("t_fall", some tFall'), ("t_rise", some tRise'),
        ("begin_rise", some beginRise'), ("begin_fall", some beginFall'), ("offset", some offset')] ∧
      Q [height', tFall', tRise', beginRise', beginFall', offset'] := by
  have hdiff : difference (.array (.d2 n [lineOf n base, lineOf n signal])) =
      .ok (lineOf n fun j => signal j - base j) := by rw [difference_two, lineOf_sub]
  generalize hy : lineOf n (fun j => signal j - base j) = y at hdiff
  have hyl : y.length = n := by rw [← hy, lineOf_length]
  have hyn : none ∉ y := by rw [← hy]; exact none_notMem_map_some _ _
  obtain ⟨a, b, hst⟩ := leadStart_exact ev.start (y := y) (by omega) hyn
  generalize hx : ((List.range n).map fun (i : Nat) => (i : ℝ) / ev.sampleRate) = x
  have hlast : x.getLastD 0 = ((n : ℝ) - 1) / ev.sampleRate := by rw [← hx]; exact times_last n (by omega) _
  let model : List ℝ → ℝ → ℝ := fun p t => leadTimes1 (p.getD 0 0) (p.getD 1 0) (p.getD 2 0) (p.getD 3 0)
      (p.getD 4 0) (p.getD 5 0) (x.getLastD 0) t
  have hthrough : ∀ p : List ℝ, (y = x.map fun t => some (model p t)) ↔ ∀ j < n, signal j - base j =
      leadTimes1 (p.getD 0 0) (p.getD 1 0) (p.getD 2 0) (p.getD 3 0) (p.getD 4 0) (p.getD 5 0)
        (((n : ℝ) - 1) / ev.sampleRate) (j / ev.sampleRate) := by
    intro p
    rw [← hy, ← hx, List.map_map, lineOf, List.map_inj_left]
    simp only [List.mem_range, Function.comp, Option.some.injEq, model, hlast]
  have hbound : ∀ (i : Nat) (e : EReal) (p : List ℝ), ([⊥, 0, 0, ⊥, ⊥, ⊥] : List EReal)[i]? = some e → i < p.length →
      0 ≤ p.getD 1 0 → 0 ≤ p.getD 2 0 → e ≤ (p.getD i 0 : ℝ) := by
    intro i e p hi _ h1 h2
    match i, hi with
    | 0, hi | 3, hi | 4, hi | 5, hi => simp at hi; simp [← hi]
    | 1, hi => simp at hi; rw [← hi]; exact EReal.coe_nonneg.2 h1
    | 2, hi => simp at hi; rw [← hi]; exact EReal.coe_nonneg.2 h2
  have hupper : ∀ (i : Nat) (e : EReal) (p : List ℝ), ([⊤, ⊤, ⊤, ⊤, ⊤, ⊤] : List EReal)[i]? = some e → i < p.length →
      (p.getD i 0 : ℝ) ≤ e := by
    intro i e p hi _
    match i, hi with
    | 0, hi | 1, hi | 2, hi | 3, hi | 4, hi | 5, hi => simp at hi; simp [← hi]
  obtain ⟨r, hr1, hrt⟩ := hN.fit ⟨model, [a, ev.start.tFall, ev.start.tRise, ev.start.beginRise, ev.start.beginFall, b].map some,
      none, [⊥, 0, 0, ⊥, ⊥, ⊥], [⊤, ⊤, ⊤, ⊤, ⊤, ⊤], x, y⟩ _ rfl
    ⟨by simp, fun i e hi hl => hbound i e _ hi hl (by simpa using h1) (by simpa using h2),
      fun i e hi hl => hupper i e _ hi hl⟩
    ⟨[height, tFall, tRise, beginRise, beginFall, offset], ⟨by simp, fun i e hi hl => hbound i e _ hi hl (by simpa using hf)
      (by simpa using hr), fun i e hi hl => hupper i e _ hi hl⟩, (hthrough _).2 (by simpa using hd)⟩
  have hs := hN.spec.size _ _ hr1
  have hlow1 := hN.spec.lower _ _ hr1 1 0 rfl (by simp at hs; omega)
  have hlow2 := hN.spec.lower _ _ hr1 2 0 rfl (by simp at hs; omega)
  have hwit : ∀ p : List ℝ, p.length = 6 → 0 ≤ p.getD 1 0 → 0 ≤ p.getD 2 0 → ∀ p0 sigma, p0.length = 6 →
      (⟨model, p0, sigma, [⊥, 0, 0, ⊥, ⊥, ⊥], [⊤, ⊤, ⊤, ⊤, ⊤, ⊤], x, y⟩ : Problem).Within p := by
    intro p hp h1 h2 p0 sigma h0
    exact ⟨by rw [hp, h0], fun i e hi hl => hbound i e _ hi hl h1 h2, fun i e hi hl => hupper i e _ hi hl⟩
  have hr6 : r.length = 6 := by simpa using hs
  obtain ⟨r', hr2, hrt'⟩ := hN.fit ⟨model, r.map some, some (prefitWeights n (r.getD 3 0) (r.getD 4 0)),
      [⊥, 0, 0, ⊥, ⊥, ⊥], [⊤, ⊤, ⊤, ⊤, ⊤, ⊤], x, y⟩ r rfl
    (hwit r hr6 (EReal.coe_nonneg.1 hlow1) (EReal.coe_nonneg.1 hlow2) _ _ (by simpa using hr6))
    ⟨r, hwit r hr6 (EReal.coe_nonneg.1 hlow1) (EReal.coe_nonneg.1 hlow2) _ _ (by simpa using hr6), hrt⟩
  have hs' := hN.spec.size _ _ hr2
  have hr6' : r'.length = 6 := by simp at hs'; omega
  have hlow1' := EReal.coe_nonneg.1 (hN.spec.lower _ _ hr2 1 0 rfl (by omega))
  have hlow2' := EReal.coe_nonneg.1 (hN.spec.lower _ _ hr2 2 0 rfl (by omega))
  have hproc : prefitProcess N ev.sampleRate ev.start (.array (.d2 n [lineOf n base, lineOf n signal])) = .ok r' := by
    unfold prefitProcess
    rw [hdiff]
    dsimp only
    rw [hst]
    dsimp only
    rw [hyl, hx, hr1]
    exact hr2
  have hq := hQ _ _ (by simp only [model, hlast]) (by simpa using hr6) rfl rfl hx.symm hy.symm hr2
  match r', hr6', hlow1', hlow2', hrt', hproc, hq with
  | [q0, q1, q2, q3, q4, q5], _, hlow1', hlow2', hrt', hproc, hq =>
    refine ⟨{ ev with rawX := .array (.d1 ((List.range n).map fun (i : Nat) => some (i / ev.sampleRate))),
                      rawY := .array (.d1 y), fitResults := some (leadLabels.zip ([q0, q1, q2, q3, q4, q5].map some)),
                      start := ⟨q1, q2, q3, q4⟩ }, q0, q1, q2, q3, q4, q5, ?_, hlow1', hlow2', (hthrough _).1 hrt', rfl, rfl, hq⟩
    unfold prefitEvaluate LeadTime.evaluate
    simp only [hdiff, hproc, hyl]
    rfl

/-- **C143**, `LeadTunnelTimePrefitVersion`.  If the difference of the two measured lines is the response to the pulse
(`leadTimes1`, see C117) with times that are not negative, `evaluate` returns the times of a response that agrees with all measured
values, with a fifth as errors, and the next fit starts with it. -/
theorem prefit_of_exact_data {N : Numerics} (hN : N.Exact) (ev : LeadTime) (h1 : 0 ≤ ev.start.tFall)
    (h2 : 0 ≤ ev.start.tRise) {n : Nat} (hn : 3 ≤ n) (base signal : Nat → ℝ)
    {height tFall tRise beginRise beginFall offset : ℝ} (hf : 0 ≤ tFall) (hr : 0 ≤ tRise)
    (hd : ∀ j < n, signal j - base j = leadTimes1 height tFall tRise beginRise beginFall offset
      (((n : ℝ) - 1) / ev.sampleRate) (j / ev.sampleRate)) :
    ∃ ev' height' tFall' tRise' beginRise' beginFall' offset',
      prefitEvaluate N (.ok (.d2 n [lineOf n base, lineOf n signal])) ev = (ev', .ok
        ([("parameter_time_rise", some tRise'), ("parameter_time_fall", some tFall')],
          [("parameter_time_rise", some (tRise' / 5)), ("parameter_time_fall", some (tFall' / 5))])) ∧
      0 ≤ tFall' ∧ 0 ≤ tRise' ∧
      (∀ j < n, signal j - base j = leadTimes1 height' tFall' tRise' beginRise' beginFall' offset'
        (((n : ℝ) - 1) / ev.sampleRate) (j / ev.sampleRate)) ∧
      ev'.start = ⟨tFall', tRise', beginRise', beginFall'⟩ ∧
      ev'.fitResults = some [("height", some height'), ("t_fall", some tFall'), ("t_rise", some tRise'),
        ("begin_rise", some beginRise'), ("begin_fall", some beginFall'), ("offset", some offset')] := by
  obtain ⟨ev', a, b, c, d, e, f, g1, g2, g3, g4, g5, g6, -⟩ := prefit_core hN ev h1 h2 hn base signal hf hr hd (fun _ => True)
    fun _ _ _ _ _ _ _ _ _ => trivial
  exact ⟨ev', a, b, c, d, e, f, g1, g2, g3, g4, g5, g6⟩

theorem times_index {n : Nat} {rate : ℝ} {b : Int} (h0 : 0 ≤ b) (h1 : b < n) :
    pyIndex ((List.range n).map fun (i : Nat) => (i : ℝ) / rate) b = .ok ((b : ℝ) / rate) := by
  unfold pyIndex
  rw [if_pos h0]
  obtain ⟨k, rfl⟩ := Int.eq_ofNat_of_zero_le h0
  simp [List.getElem?_range (show k < n by omega)]

/-- The start values of the line between two points are numbers, the third is the distance of the points. -/
theorem shortLine_exact {n : Nat} {rate : ℝ} (hrate : 0 < rate) {y : List Val} (hy : y.length = n) (hn : none ∉ y) {b : Int}
    (h0 : 0 ≤ b) (h1 : b + 2 < n) : ∃ c d : ℝ,
    shortLine ((List.range n).map fun (i : Nat) => (i : ℝ) / rate) y b = .ok ([c, d, 2 / rate].map some) := by
  obtain ⟨a1, h1'⟩ := pyIndex_ok (l := y) (i := b + 2) (by omega) (by omega)
  obtain ⟨a2, h2'⟩ := pyIndex_ok (l := y) (i := b) h0 (by omega)
  obtain ⟨r1, rfl⟩ := isSome_of_notMem hn (pyIndex_mem h1')
  obtain ⟨r2, rfl⟩ := isSome_of_notMem hn (pyIndex_mem h2')
  have hd : ((b + 2 : Int) : ℝ) / rate - (b : ℝ) / rate = 2 / rate := by push_cast; ring
  unfold shortLine
  rw [h1', h2', times_index (b := b + 2) (by omega) (by omega), times_index h0 (by omega)]
  dsimp only
  rw [hd]
  have : (2 / rate : ℝ) ≠ 0 := by positivity
  refine ⟨(r1 - r2) / (2 / rate), r2 - (r1 - r2) / (2 / rate) * (b / rate), ?_⟩
  simp [Val.sub, Val.div, Val.mul, this, hrate.ne']

/-- **C143**, `LeadTunnelTimeByLeadScan`.  If the difference of the two measured lines is the response to the pulse with short
straight pieces (`leadTimes2`, see C117), whose times are not negative and whose pieces are not longer than the 161st part of the
scan, `evaluate` returns the times of a response that agrees with all measured values, with a fifth as errors.  The scan needs
322 points: the fit starts with pieces of the length of two points. -/
theorem scan_of_exact_data {N : Numerics} (hN : N.Exact) (ev : LeadTime) (h1 : 0 ≤ ev.start.tFall)
    (h2 : 0 ≤ ev.start.tRise) (hrate : 0 < ev.sampleRate) {n : Nat} (hn : 322 ≤ n)
    (b0 : 0 ≤ pyRound (ev.start.beginRise / 10e-9)) (b1 : pyRound (ev.start.beginRise / 10e-9) + 2 < n)
    (b2 : 0 ≤ pyRound (ev.start.beginFall / 10e-9)) (b3 : pyRound (ev.start.beginFall / 10e-9) + 2 < n)
    (base signal : Nat → ℝ)
    {height tFall tRise beginRise beginFall offset slope line lengthFall slope1 line1 lengthRise : ℝ}
    (hf : 0 ≤ tFall) (hr : 0 ≤ tRise) (hlf : 0 ≤ lengthFall) (hlf' : lengthFall ≤ n / 161 / ev.sampleRate)
    (hlr : 0 ≤ lengthRise) (hlr' : lengthRise ≤ n / 161 / ev.sampleRate)
    (hd : ∀ j < n, signal j - base j = leadTimes2 height tFall tRise beginRise beginFall offset slope line lengthFall slope1
      line1 lengthRise (((n : ℝ) - 1) / ev.sampleRate) (j / ev.sampleRate)) :
    ∃ ev' height' tFall' tRise' beginRise' beginFall' offset' slope' line' lengthFall' slope1' line1' lengthRise',
      scanEvaluate N (.ok (.d2 n [lineOf n base, lineOf n signal])) ev = (ev', .ok
        ([("parameter_time_rise", some tRise'), ("parameter_time_fall", some tFall')],
          [("parameter_time_rise", some (tRise' / 5)), ("parameter_time_fall", some (tFall' / 5))])) ∧
      0 ≤ tFall' ∧ 0 ≤ tRise' ∧ 0 ≤ lengthRise' ∧
      (∀ j < n, signal j - base j = leadTimes2 height' tFall' tRise' beginRise' beginFall' offset' slope' line' lengthFall'
        slope1' line1' lengthRise' (((n : ℝ) - 1) / ev.sampleRate) (j / ev.sampleRate)) ∧
      ev'.start = ev.start ∧
      ev'.fitResults = some [("height", some height'), ("t_fall", some tFall'), ("t_rise", some tRise'),
        ("begin_rise", some beginRise'), ("begin_fall", some beginFall'), ("offset", some offset'), ("slope", some slope'),
        ("offset_linear", some line'), ("length_lin_fall", some lengthFall'), ("slope_1", some slope1'), ("offset_linear_1", some line1'),
        ("length_lin_rise", some lengthRise')] := by
  have hdiff : difference (.array (.d2 n [lineOf n base, lineOf n signal])) =
      .ok (lineOf n fun j => signal j - base j) := by rw [difference_two, lineOf_sub]
  generalize hy : lineOf n (fun j => signal j - base j) = y at hdiff
  have hyl : y.length = n := by rw [← hy, lineOf_length]
  have hyn : none ∉ y := by rw [← hy]; exact none_notMem_map_some _ _
  obtain ⟨a, b, hst⟩ := leadStart_exact ev.start (y := y) (by omega) hyn
  obtain ⟨c, d, hsl⟩ := shortLine_exact hrate hyl hyn b2 b3
  obtain ⟨c1, d1, hsl1⟩ := shortLine_exact hrate hyl hyn b0 b1
  have hshort : 0 ≤ 2 / ev.sampleRate ∧ 2 / ev.sampleRate ≤ n / 161 / ev.sampleRate := by
    have hn' : (322 : ℝ) ≤ n := by exact_mod_cast hn
    exact ⟨by positivity, div_le_div_of_nonneg_right (by linarith) hrate.le⟩
  generalize hx : ((List.range n).map fun (i : Nat) => (i : ℝ) / ev.sampleRate) = x at hsl hsl1
  have hlast : x.getLastD 0 = ((n : ℝ) - 1) / ev.sampleRate := by rw [← hx]; exact times_last n (by omega) _
  let model : List ℝ → ℝ → ℝ := fun p t => leadTimes2 (p.getD 0 0) (p.getD 1 0) (p.getD 2 0) (p.getD 3 0)
            (p.getD 4 0) (p.getD 5 0) (p.getD 6 0) (p.getD 7 0) (p.getD 8 0) (p.getD 9 0) (p.getD 10 0)
            (p.getD 11 0) (x.getLastD 0) t
  have hthrough : ∀ p : List ℝ, (y = x.map fun t => some (model p t)) ↔ ∀ j < n, signal j - base j =
      leadTimes2 (p.getD 0 0) (p.getD 1 0) (p.getD 2 0) (p.getD 3 0)
            (p.getD 4 0) (p.getD 5 0) (p.getD 6 0) (p.getD 7 0) (p.getD 8 0) (p.getD 9 0) (p.getD 10 0)
            (p.getD 11 0) (((n : ℝ) - 1) / ev.sampleRate) (j / ev.sampleRate) := by
    intro p
    rw [← hy, ← hx, List.map_map, lineOf, List.map_inj_left]
    simp only [List.mem_range, Function.comp, Option.some.injEq, model, hlast]
  generalize hlong : ((n / 161 / ev.sampleRate : ℝ)) = long at hlf' hlr' hshort
  have hwithin : ∀ s p : List ℝ, s.length = 12 → p.length = 12 → 0 ≤ p.getD 1 0 → 0 ≤ p.getD 2 0 → 0 ≤ p.getD 8 0 →
      0 ≤ p.getD 11 0 → p.getD 8 0 ≤ long → p.getD 11 0 ≤ long →
      (⟨model, s.map some, none, [⊥, 0, 0, ⊥, ⊥, ⊥, ⊥, ⊥, 0, ⊥, ⊥, 0],
        [⊤, ⊤, ⊤, ⊤, ⊤, ⊤, ⊤, ⊤, (long : EReal), ⊤, ⊤, (long : EReal)], x, y⟩ : Problem).Within p := by
    intro s p hs hp g1 g2 g8 g11 g8' g11'
    refine ⟨by simp [hs, hp], fun i e hi hl => ?_, fun i e hi hl => ?_⟩
    · match i, hi with
      | 0, hi | 3, hi | 4, hi | 5, hi | 6, hi | 7, hi | 9, hi | 10, hi => simp at hi; simp [← hi]
      | 1, hi => simp at hi; rw [← hi]; exact EReal.coe_nonneg.2 g1
      | 2, hi => simp at hi; rw [← hi]; exact EReal.coe_nonneg.2 g2
      | 8, hi => simp at hi; rw [← hi]; exact EReal.coe_nonneg.2 g8
      | 11, hi => simp at hi; rw [← hi]; exact EReal.coe_nonneg.2 g11
    · match i, hi with
      | 0, hi | 1, hi | 2, hi | 3, hi | 4, hi | 5, hi | 6, hi | 7, hi | 9, hi | 10, hi => simp at hi; simp [← hi]
      | 8, hi => simp at hi; rw [← hi]; exact EReal.coe_le_coe_iff.2 g8'
      | 11, hi => simp at hi; rw [← hi]; exact EReal.coe_le_coe_iff.2 g11'
  have hstart := hwithin [a, ev.start.tFall, ev.start.tRise, ev.start.beginRise, ev.start.beginFall, b, c, d,
      2 / ev.sampleRate, c1, d1, 2 / ev.sampleRate] [a, ev.start.tFall, ev.start.tRise, ev.start.beginRise,
      ev.start.beginFall, b, c, d, 2 / ev.sampleRate, c1, d1, 2 / ev.sampleRate] rfl rfl h1 h2 hshort.1 hshort.1
      hshort.2 hshort.2
  obtain ⟨r, hr1, hrt⟩ := hN.fit _ _ rfl hstart
    ⟨[height, tFall, tRise, beginRise, beginFall, offset, slope, line, lengthFall, slope1, line1, lengthRise],
      hwithin _ [height, tFall, tRise, beginRise, beginFall, offset, slope, line, lengthFall, slope1, line1, lengthRise]
        rfl rfl hf hr hlf hlr hlf' hlr', (hthrough _).2 hd⟩
  have hr12 : r.length = 12 := by simpa using hN.spec.size _ _ hr1
  have hlow1 := EReal.coe_nonneg.1 (hN.spec.lower _ _ hr1 1 0 rfl (by omega))
  have hlow2 := EReal.coe_nonneg.1 (hN.spec.lower _ _ hr1 2 0 rfl (by omega))
  have hlow11 := EReal.coe_nonneg.1 (hN.spec.lower _ _ hr1 11 0 rfl (by omega))
  have hproc : scanProcess N ev.sampleRate ev.start (.array (.d2 n [lineOf n base, lineOf n signal])) = .ok r := by
    unfold scanProcess
    rw [hdiff]
    dsimp only
    rw [hst]
    dsimp only
    rw [hyl, hx, hsl, hsl1, hlong]
    exact hr1
  match r, hr12, hlow1, hlow2, hlow11, hrt, hproc with
  | [q0, q1, q2, q3, q4, q5, q6, q7, q8, q9, q10, q11], _, hlow1, hlow2, hlow11, hrt, hproc =>
    refine ⟨_, q0, q1, q2, q3, q4, q5, q6, q7, q8, q9, q10, q11, Prod.ext rfl ?_, hlow1, hlow2, hlow11, (hthrough _).1 hrt, ?_, ?_⟩
    · unfold scanEvaluate LeadTime.evaluate
      simp only [hdiff, hproc]
      rfl
    · unfold scanEvaluate LeadTime.evaluate
      simp only [hdiff, hproc]
    · unfold scanEvaluate LeadTime.evaluate
      simp only [hdiff, hproc]
      rfl

/-! ## Cases -/

/-- A curve with three points and a load time of 20. -/
example (ev : LoadTime) (h : ev.initialCurvature = 10) :
    (ev.evaluate contrary (.ok (.d2 3 [[0, 50, 100].map fun t => some (1 + 2 * Real.exp (-t / 20)), [0, 50, 100].map some]))).2 =
      .ok ([("parameter_time_load", some 20)], [("parameter_time_load", some 0)]) :=
  load_time_of_exact_data contrary_exact ev (by rw [h]; norm_num) (by rw [h]; norm_num) [0, 50, 100] (x := 0) (y := 50) (z := 100)
    (by simp) (by simp) (by simp) (by norm_num) (by norm_num) (by norm_num) (by norm_num) (by norm_num)

/-- A scan over 5 points, measured twice. -/
example (ev : InterDot) (h1 : ev.center = 0) (h2 : ev.range = 4) : ∃ ev' width' error,
    ev.evaluate contrary (.ok (.d2 5 (List.replicate 2 (lineOf 5 fun j => transition 1 0 2 0 1 (scanPoint 0 4 5 j))))) =
      (ev', .ok ([("parameter_tunnel_coupling", some width')], [("parameter_tunnel_coupling", error)])) := by
  obtain ⟨ev', _, _, _, _, w, e, h, -⟩ := tunnel_coupling_of_exact_data contrary_exact ev (by rw [h2]; norm_num) (n := 5)
    (by norm_num) (data := .d2 5 (List.replicate 2 (lineOf 5 fun j => transition 1 0 2 0 1 (scanPoint 0 4 5 j))))
    (offset := 1) (slope := 0) (height := 2) (position := 0) (width := 1)
    ⟨rfl, by simp, by rw [h1, h2]; intro r hr; exact List.eq_of_mem_replicate hr⟩
  exact ⟨ev', w, e, h⟩

/-- The evaluator with the default settings (evaluator.py:132-151, 236-255): 100 MHz, edges at 70 ns and 2070 ns. -/
noncomputable def defaultLead : LeadTime := ⟨["parameter_time_rise", "parameter_time_fall"], 10 ^ 8,
  ⟨50e-9, 50e-9, 70e-9, 2070e-9⟩, none, .list [], .list []⟩

/-- A response with the times 30 ns and 60 ns. -/
example : ∃ ev' tFall' tRise', prefitEvaluate contrary (.ok (.d2 400 [lineOf 400 fun _ => 1, lineOf 400 fun j => 1 +
      leadTimes1 2 30e-9 60e-9 70e-9 2070e-9 5 ((((400 : Nat) : ℝ) - 1) / 10 ^ 8) (j / 10 ^ 8)])) defaultLead =
    (ev', .ok ([("parameter_time_rise", some tRise'), ("parameter_time_fall", some tFall')],
      [("parameter_time_rise", some (tRise' / 5)), ("parameter_time_fall", some (tFall' / 5))])) := by
  obtain ⟨ev', _, f, r, _, _, _, h, -⟩ := prefit_of_exact_data contrary_exact defaultLead (by norm_num [defaultLead])
    (by norm_num [defaultLead]) (n := 400) (by norm_num) (fun _ => 1) (fun j => 1 +
      leadTimes1 2 30e-9 60e-9 70e-9 2070e-9 5 ((((400 : Nat) : ℝ) - 1) / 10 ^ 8) (j / 10 ^ 8)) (height := 2) (tFall := 30e-9)
    (tRise := 60e-9) (beginRise := 70e-9) (beginFall := 2070e-9) (offset := 5) (by norm_num) (by norm_num)
    (fun j _ => by simp [defaultLead])
  exact ⟨ev', f, r, h⟩

example : ∃ ev' tFall' tRise', scanEvaluate contrary (.ok (.d2 400 [lineOf 400 fun _ => 1, lineOf 400 fun j => 1 +
      leadTimes2 2 30e-9 60e-9 70e-9 2070e-9 5 1 2 10e-9 3 4 10e-9 ((((400 : Nat) : ℝ) - 1) / 10 ^ 8) (j / 10 ^ 8)])) defaultLead =
    (ev', .ok ([("parameter_time_rise", some tRise'), ("parameter_time_fall", some tFall')],
      [("parameter_time_rise", some (tRise' / 5)), ("parameter_time_fall", some (tFall' / 5))])) := by
  have key : ∀ (x : ℝ) (k : Int), x = k → pyRound x = k := by
    intro x k h
    obtain ⟨a, b⟩ := pyRound_bounds x
    rw [h] at a b ⊢
    have h1 : ((pyRound (k : ℝ) : Int) : ℝ) < ((k + 1 : Int) : ℝ) := by push_cast; linarith
    have h2 : ((k - 1 : Int) : ℝ) < (pyRound (k : ℝ) : Int) := by push_cast; linarith
    have h1' := Int.cast_lt.1 h1
    have h2' := Int.cast_lt.1 h2
    omega
  have k1 := key (defaultLead.start.beginRise / 10e-9) 7 (by norm_num [defaultLead])
  have k2 := key (defaultLead.start.beginFall / 10e-9) 207 (by norm_num [defaultLead])
  obtain ⟨ev', _, f, r, _, _, _, _, _, _, _, _, _, h, -⟩ := scan_of_exact_data contrary_exact defaultLead (by norm_num [defaultLead])
    (by norm_num [defaultLead]) (by norm_num [defaultLead]) (n := 400) (by norm_num)
    (by rw [k1]; norm_num) (by rw [k1]; norm_num) (by rw [k2]; norm_num) (by rw [k2]; norm_num) (fun _ => 1) (fun j => 1 +
      leadTimes2 2 30e-9 60e-9 70e-9 2070e-9 5 1 2 10e-9 3 4 10e-9 ((((400 : Nat) : ℝ) - 1) / 10 ^ 8) (j / 10 ^ 8))
    (height := 2) (tFall := 30e-9) (tRise := 60e-9) (beginRise := 70e-9) (beginFall := 2070e-9) (offset := 5) (slope := 1)
    (line := 2) (lengthFall := 10e-9) (slope1 := 3) (line1 := 4) (lengthRise := 10e-9) (by norm_num) (by norm_num)
    (by norm_num) (by norm_num [defaultLead]) (by norm_num) (by norm_num [defaultLead])
    (fun j _ => by simp [defaultLead])
  exact ⟨ev', f, r, h⟩

end Qtune.Evaluator.Fit
