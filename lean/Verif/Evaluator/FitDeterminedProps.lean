import Verif.Evaluator.FitDetermined
import Verif.Evaluator.FitTransition

/-!
# Fits of exact data give the true tunnel times and tunnel couplings (C143)
-/

namespace Qtune.Evaluator.Fit

open Classical

/-- **C143**, `LeadTunnelTimePrefitVersion`.  If the difference of the two measured lines is the response to the pulse, at least two
points are before its rise, nine between rise and fall (from index `m` on) and eight after the fall (from index `e` on), `evaluate` returns
the tunnel times. -/
theorem prefit_true_times {N : Numerics} (hN : N.Exact) (ev : LeadTime) (h1 : 0 ≤ ev.start.tFall)
    (h2 : 0 ≤ ev.start.tRise) (hrate : 0 < ev.sampleRate) {n m e : Nat} (base signal : Nat → ℝ)
    {height tFall tRise beginRise beginFall offset : ℝ} (hh : height ≠ 0) (hf : 0 < tFall) (hr : 0 < tRise)
    (h0 : 1 / ev.sampleRate < beginRise) (hm : beginRise ≤ m / ev.sampleRate) (hm' : (m + 8) / ev.sampleRate < beginFall)
    (he : beginFall ≤ e / ev.sampleRate) (hen : e + 8 ≤ n)
    (hd : ∀ j < n, signal j - base j = leadTimes1 height tFall tRise beginRise beginFall offset
      (((n : ℝ) - 1) / ev.sampleRate) (j / ev.sampleRate)) :
    (prefitEvaluate N (.ok (.d2 n [lineOf n base, lineOf n signal])) ev).2 = .ok
      ([("parameter_time_rise", some tRise), ("parameter_time_fall", some tFall)],
        [("parameter_time_rise", some (tRise / 5)), ("parameter_time_fall", some (tFall / 5))]) := by
  obtain ⟨ev', height', tFall', tRise', beginRise', beginFall', offset', g1, g2, g3, g4, -⟩ :=
    prefit_of_exact_data hN ev h1 h2 (n := n) (by omega) base signal hf.le hr.le hd
  obtain ⟨rfl, rfl⟩ := tunnel_times_determined (d := 1 / ev.sampleRate) (by positivity) (n := n) (m := m) (e := e) hh hf hr h0
    (by rw [mul_one_div]; exact hm) (by rw [mul_one_div]; exact hm') (by rw [mul_one_div]; exact he) hen g2 g3
    (last := ((n : ℝ) - 1) / ev.sampleRate) (offset := offset) (height' := height') (beginRise' := beginRise') (beginFall' := beginFall')
    (offset' := offset') (by
      intro j hj
      rw [mul_one_div, ← hd j hj, ← g4 j hj])
  rw [g1]

/-- **C143**, `LeadTunnelTimeByLeadScan`.  If the difference of the two measured lines is the response to the pulse with short straight
pieces, at least two points are before its rise, nine between the first straight piece and the fall (from index `m` on) and eight
after the second straight piece (from index `e` on), `evaluate` returns the tunnel times. -/
theorem scan_true_times {N : Numerics} (hN : N.Exact) (ev : LeadTime) (h1 : 0 ≤ ev.start.tFall)
    (h2 : 0 ≤ ev.start.tRise) (hrate : 0 < ev.sampleRate) {n m e : Nat} (hn : 322 ≤ n)
    (b0 : 0 ≤ pyRound (ev.start.beginRise / 10e-9)) (b1 : pyRound (ev.start.beginRise / 10e-9) + 2 < n)
    (b2 : 0 ≤ pyRound (ev.start.beginFall / 10e-9)) (b3 : pyRound (ev.start.beginFall / 10e-9) + 2 < n)
    (base signal : Nat → ℝ)
    {height tFall tRise beginRise beginFall offset slope line lengthFall slope1 line1 lengthRise : ℝ}
    (hh : height ≠ 0) (hf : 0 < tFall) (hr : 0 < tRise) (hlf : 0 ≤ lengthFall) (hlf' : lengthFall ≤ n / 161 / ev.sampleRate)
    (hlr : 0 ≤ lengthRise) (hlr' : lengthRise ≤ n / 161 / ev.sampleRate)
    (h0 : 1 / ev.sampleRate < beginRise) (hm : beginRise + lengthRise ≤ m / ev.sampleRate)
    (hm' : (m + 8) / ev.sampleRate ≤ beginFall) (he : beginFall + lengthFall ≤ e / ev.sampleRate)
    (he' : beginFall < e / ev.sampleRate) (hen : e + 8 ≤ n)
    (hd : ∀ j < n, signal j - base j = leadTimes2 height tFall tRise beginRise beginFall offset slope line lengthFall slope1
      line1 lengthRise (((n : ℝ) - 1) / ev.sampleRate) (j / ev.sampleRate)) :
    (scanEvaluate N (.ok (.d2 n [lineOf n base, lineOf n signal])) ev).2 = .ok
      ([("parameter_time_rise", some tRise), ("parameter_time_fall", some tFall)],
        [("parameter_time_rise", some (tRise / 5)), ("parameter_time_fall", some (tFall / 5))]) := by
  obtain ⟨ev', height', tFall', tRise', beginRise', beginFall', offset', slope', line', lengthFall', slope1', line1', lengthRise', g1,
    g2, g3, g5, g4, -⟩ := scan_of_exact_data hN ev h1 h2 hrate hn b0 b1 b2 b3 base signal hf.le hr.le hlf hlf' hlr hlr' hd
  obtain ⟨rfl, rfl⟩ := tunnel_times_determined_lines (d := 1 / ev.sampleRate) (by positivity) (n := n) (m := m) (e := e) hh hf hr
    hlr h0 (by rw [mul_one_div]; exact hm) (beginFall := beginFall) (lengthFall := lengthFall) (by rw [mul_one_div]; exact hm') (by rw [mul_one_div]; exact he)
    (by rw [mul_one_div]; exact he') hen g2 g3 g5 (last := ((n : ℝ) - 1) / ev.sampleRate) (offset := offset) (slope := slope) (line := line)
    (slope1 := slope1) (line1 := line1) (height' := height') (beginRise' := beginRise') (beginFall' := beginFall') (offset' := offset')
    (slope' := slope') (line' := line') (slope1' := slope1') (line1' := line1') (lengthFall' := lengthFall') (by
      intro j hj
      rw [mul_one_div, ← hd j hj, ← g4 j hj])
  rw [g1]

/-- A fit routine that finds exact fits, and prefers those with the parameters `q`. -/
noncomputable def preferring (q : List ℝ) : Numerics where
  curveFit P :=
    if none ∈ P.y then .error .valueError
    else if P.Within q ∧ P.Through q then .ok q
    else if h : ∃ r : List ℝ, P.Within r ∧ P.Through r then .ok h.choose
    else .error (.runtimeError "Optimal parameters not found")
  polyfit _ _ := (some 0, some 0)

theorem preferring_ok {q : List ℝ} (P : Problem) (r : List ℝ) (h : (preferring q).curveFit P = .ok r) : P.Within r ∧ P.Through r := by
  simp only [preferring] at h
  split at h
  · cases h
  · split at h
    next h' => cases h; exact h'
    · split at h
      next h' => cases h; exact h'.choose_spec
      · cases h

theorem preferring_exact (q : List ℝ) : (preferring q).Exact := by
  refine ⟨⟨fun P h => by simp [preferring, h], fun P r h => (preferring_ok P r h).1.size,
    fun P r h => (preferring_ok P r h).1.lower, fun P r h => (preferring_ok P r h).1.upper⟩,
    fun x y _ => ⟨0, 0, rfl⟩, ?_⟩
  rintro P s - - hex
  have hn : none ∉ P.y := by
    obtain ⟨p, -, hp⟩ := hex
    rw [Problem.Through] at hp
    rw [hp]
    exact none_notMem_map_some _ _
  have hok : ∃ r, (preferring q).curveFit P = .ok r := by
    simp only [preferring, if_neg hn]
    split
    · exact ⟨_, rfl⟩
    · exact ⟨_, rfl⟩
  obtain ⟨r, hr⟩ := hok
  exact ⟨r, hr, (preferring_ok P r hr).2⟩

/-- Rise and fall of a response that is measured over exactly one period from its rise on may be exchanged. -/
theorem leadTimes1_swap {height tFall tRise offset x : ℝ} (hf : 0 < tFall) (hr : 0 < tRise) (h0 : 0 ≤ x) (h1 : x ≤ 2 * halfTime) :
    leadTimes1 (-height) tRise tFall halfTime (2 * halfTime) offset (2 * halfTime) x =
      leadTimes1 height tFall tRise 0 halfTime offset (2 * halfTime) x := by
  have hh := halfTime_pos'
  rcases lt_or_ge x halfTime with h2 | h2
  · have e1 : 3 * halfTime - 2 * (x + 2 * halfTime - (2 * halfTime - halfTime)) = halfTime - 2 * (x - 0) := by ring
    rw [leadTimes1, if_pos h2, leadTimes1, if_neg (not_lt.2 h0), if_pos ⟨h0, h2⟩, e1]
    dsimp only
    ring
  · rcases lt_or_eq_of_le h1 with h3 | h3
    · have e1 : 3 * halfTime - 2 * (x - (halfTime - halfTime)) = halfTime - 2 * (x - halfTime) := by ring
      rw [leadTimes1, if_neg (not_lt.2 h2), if_pos ⟨h2, h3⟩, leadTimes1, if_neg (not_lt.2 h0),
        if_neg (fun h => absurd h.2 (not_lt.2 h2)), e1]
      dsimp only
      ring
    · have e1 : 1 / 2 * (3 * halfTime - 2 * (2 * halfTime - (2 * halfTime - halfTime))) / tRise = 1 / 2 * halfTime / tRise := by ring
      have e2 : 1 / 2 * (3 * halfTime - 2 * (2 * halfTime - (halfTime - halfTime))) / tFall = -(1 / 2 * halfTime / tFall) := by ring
      subst h3
      rw [leadTimes1, if_neg (not_lt.2 h2), if_neg (fun h => absurd h.2 (lt_irrefl _)), leadTimes1, if_neg (not_lt.2 h0),
        if_neg (fun h => absurd h.2 (not_lt.2 h2)), e1, e2]
      dsimp only
      have s1 := (sinh_half_pos hr).ne'
      have s2 := (sinh_half_pos hf).ne'
      have c1 : Real.cosh (1 / 2 * halfTime / tRise) - Real.exp (1 / 2 * halfTime / tRise) = -Real.sinh (1 / 2 * halfTime / tRise) := by
        rw [Real.sinh_eq, Real.cosh_eq]; ring
      have c2 : Real.cosh (1 / 2 * halfTime / tFall) - Real.exp (-(1 / 2 * halfTime / tFall)) = Real.sinh (1 / 2 * halfTime / tFall) := by
        rw [Real.sinh_eq, Real.cosh_eq]; ring
      rw [c1, c2]
      field_simp

/-- **C143** is false of `LeadTunnelTimePrefitVersion` for scans that begin with the rise and last exactly one period: the values do
not determine which of the times is which, and there is a fit routine that finds exact fits with which `evaluate` exchanges them. -/
theorem tunnel_times_swapped_refuted (ev : LeadTime) (h1 : 0 ≤ ev.start.tFall) (h2 : 0 ≤ ev.start.tRise) (hrate : 0 < ev.sampleRate)
    {n : Nat} (hn : 3 ≤ n) (hlast : ((n : ℝ) - 1) / ev.sampleRate = 2 * halfTime) (base signal : Nat → ℝ)
    {height tFall tRise offset : ℝ} (hf : 0 < tFall) (hr : 0 < tRise)
    (hd : ∀ j < n, signal j - base j = leadTimes1 height tFall tRise 0 halfTime offset
      (((n : ℝ) - 1) / ev.sampleRate) (j / ev.sampleRate)) :
    ∃ N : Numerics, N.Exact ∧ (prefitEvaluate N (.ok (.d2 n [lineOf n base, lineOf n signal])) ev).2 = .ok
      ([("parameter_time_rise", some tFall), ("parameter_time_fall", some tRise)],
        [("parameter_time_rise", some (tFall / 5)), ("parameter_time_fall", some (tRise / 5))]) := by
  let q : List ℝ := [-height, tRise, tFall, halfTime, 2 * halfTime, offset]
  have hbound : ∀ (i : Nat) (e : EReal), ([⊥, 0, 0, ⊥, ⊥, ⊥] : List EReal)[i]? = some e → i < q.length → e ≤ (q.getD i 0 : ℝ) := by
    intro i e hi _
    match i, hi with
    | 0, hi | 3, hi | 4, hi | 5, hi => simp at hi; simp [← hi]
    | 1, hi => simp at hi; rw [← hi]; exact EReal.coe_nonneg.2 hr.le
    | 2, hi => simp at hi; rw [← hi]; exact EReal.coe_nonneg.2 hf.le
  have hupper : ∀ (i : Nat) (e : EReal), ([⊤, ⊤, ⊤, ⊤, ⊤, ⊤] : List EReal)[i]? = some e → i < q.length → (q.getD i 0 : ℝ) ≤ e := by
    intro i e hi _
    match i, hi with
    | 0, hi | 1, hi | 2, hi | 3, hi | 4, hi | 5, hi => simp at hi; simp [← hi]
  refine ⟨preferring q, preferring_exact q, ?_⟩
  obtain ⟨ev', height', tFall', tRise', beginRise', beginFall', offset', g1, -, -, -, -, -, g2⟩ :=
    prefit_core (preferring_exact q) ev h1 h2 hn base signal hf.le hr.le hd (fun r => r = q) (by
      intro P r hmod h6 hlo hup hx hy hfit
      have hin : P.Within q := ⟨by rw [h6]; rfl, by rw [hlo]; exact hbound, by rw [hup]; exact hupper⟩
      have hth : P.Through q := by
        rw [Problem.Through, hmod, hx, hy, List.map_map, lineOf, List.map_inj_left]
        intro j hj
        have hj' := List.mem_range.1 hj
        rw [Function.comp, hd j hj', hlast]
        congr 1
        refine (leadTimes1_swap hf hr (by positivity) ?_).symm
        rw [← hlast]
        apply div_le_div_of_nonneg_right _ hrate.le
        have : ((j + 1 : Nat) : ℝ) ≤ n := by exact_mod_cast hj'
        push_cast at this
        linarith
      have hno : none ∉ P.y := by
        rw [Problem.Through] at hth
        rw [hth]
        exact none_notMem_map_some _ _
      simp only [preferring, if_neg hno, if_pos (And.intro hin hth)] at hfit
      cases hfit
      rfl)
  simp only [q, List.cons.injEq] at g2
  obtain ⟨-, rfl, rfl, -⟩ := g2
  rw [g1]

/-- The points of a scan are different. -/
theorem scanPoint_list {center range : ℝ} (hrange : range ≠ 0) {n : Nat} (hn : 2 ≤ n) : ∃ s : List ℝ, s.Pairwise (· < ·) ∧ s.length = n ∧
    ∀ x ∈ s, ∃ j < n, x = scanPoint center range n j := by
  have hn' : (0 : ℝ) < n - 1 := by
    have : (2 : ℝ) ≤ n := by exact_mod_cast hn
    linarith
  rcases lt_or_gt_of_ne hrange with h | h
  · refine ⟨((List.range n).map (scanPoint center range n)).reverse, ?_, by simp, ?_⟩
    · rw [List.pairwise_reverse, List.pairwise_map]
      refine List.pairwise_lt_range.imp ?_
      intro i j hij
      have : (i : ℝ) < j := by exact_mod_cast hij
      have := mul_lt_mul_of_neg_right this (div_neg_of_neg_of_pos (by linarith : 2 * range < 0) hn')
      simp only [scanPoint]
      linarith
    · intro x hx
      obtain ⟨j, hj, rfl⟩ := List.mem_map.1 (List.mem_reverse.1 hx)
      exact ⟨j, List.mem_range.1 hj, rfl⟩
  · refine ⟨(List.range n).map (scanPoint center range n), ?_, by simp, ?_⟩
    · rw [List.pairwise_map]
      refine List.pairwise_lt_range.imp ?_
      intro i j hij
      have : (i : ℝ) < j := by exact_mod_cast hij
      have := mul_lt_mul_of_pos_right this (div_pos (by linarith : 0 < 2 * range) hn')
      simp only [scanPoint]
      linarith
    · intro x hx
      obtain ⟨j, hj, rfl⟩ := List.mem_map.1 hx
      exact ⟨j, List.mem_range.1 hj, rfl⟩

/-- **C143**, `InterDotTCByLineScan`.  If the measured values show a transition at the points of a scan of at least eight points,
`evaluate` returns its width, except for the sign, and the error 0. -/
theorem tunnel_coupling_true_partial {N : Numerics} (hN : N.Exact) (ev : InterDot) (hrange : ev.range ≠ 0) {n : Nat}
    (hn : 8 ≤ n) {data : NdArray} {offset slope height position width : ℝ} (hh : height ≠ 0) (hw : width ≠ 0)
    (hd : Shows ev.center ev.range n (transition offset slope height position width) data) :
    ∃ width', (ev.evaluate N (.ok data)).2 = .ok ([("parameter_tunnel_coupling", some width')],
      [("parameter_tunnel_coupling", some 0)]) ∧ |width'| = |width| := by
  obtain ⟨ev', offset', slope', height', position', width', error, h1, h2, -, h4⟩ :=
    tunnel_coupling_of_exact_data hN ev hrange (by omega : 3 ≤ n) hd
  obtain ⟨s, s1, s2, s3⟩ := scanPoint_list (center := ev.center) hrange (by omega : 2 ≤ n)
  obtain ⟨-, -, h5⟩ := transition_determined (offset' := offset') (slope' := slope') (height' := height') (position' := position')
    (width' := width') (offset := offset) (slope := slope) (position := position) hh hw s1 (by omega) (by
      intro x hx
      obtain ⟨j, hj, rfl⟩ := s3 x hx
      exact h2 j hj)
  refine ⟨width', ?_, ?_⟩
  · have he : error = some 0 := by
      apply h4
      rcases h5 with ⟨-, h, -⟩ | ⟨-, h, -⟩
      · rw [h]; exact hh
      · rw [h]; exact neg_ne_zero.2 hh
    rw [h1, he]
  · rcases h5 with ⟨h, -⟩ | ⟨h, -⟩
    · rw [h]
    · rw [h, abs_neg]

/-! ## Cases -/

example (N : Numerics) (hN : N.Exact) : ∃ width', ((InterDot.mk ["parameter_tunnel_coupling"] 0 1 none .none .none).evaluate N
      (.ok (.d1 (lineOf 100 fun j => transition 1 2 3 0.5 0.25 (scanPoint 0 1 100 j))))).2 =
    .ok ([("parameter_tunnel_coupling", some width')], [("parameter_tunnel_coupling", some 0)]) ∧ |width'| = |(0.25 : ℝ)| :=
  tunnel_coupling_true_partial hN _ one_ne_zero (by norm_num) (by norm_num) (by norm_num) rfl

example (N : Numerics) (hN : N.Exact) : (scanEvaluate N (.ok (.d2 400 [lineOf 400 fun _ => 1, lineOf 400 fun j => 1 +
      leadTimes2 2 30e-9 60e-9 70e-9 2070e-9 5 1 2 10e-9 3 4 10e-9 ((((400 : Nat) : ℝ) - 1) / 10 ^ 8) (j / 10 ^ 8)])) defaultLead).2 =
    .ok ([("parameter_time_rise", some 60e-9), ("parameter_time_fall", some 30e-9)],
      [("parameter_time_rise", some (60e-9 / 5)), ("parameter_time_fall", some (30e-9 / 5))]) := by
  have key : ∀ (x : ℝ) (k : Int), x = k → pyRound x = k := by
    intro x k h
    obtain ⟨a, b⟩ := pyRound_bounds x
    rw [h] at a b ⊢
    have h1 : ((pyRound (k : ℝ) : Int) : ℝ) < ((k + 1 : Int) : ℝ) := by push_cast; linarith
    have h2 : ((k - 1 : Int) : ℝ) < (pyRound (k : ℝ) : Int) := by push_cast; linarith
    have h1' := Int.cast_lt.1 h1
    have h2' := Int.cast_lt.1 h2
    omega
  have k1 := key (defaultLead.start.beginRise / 10e-9) 7 (by norm_num [defaultLead])
  have k2 := key (defaultLead.start.beginFall / 10e-9) 207 (by norm_num [defaultLead])
  exact scan_true_times hN defaultLead (by norm_num [defaultLead])
    (by norm_num [defaultLead]) (by norm_num [defaultLead]) (n := 400) (m := 8) (e := 208) (by norm_num)
    (by rw [k1]; norm_num) (by rw [k1]; norm_num) (by rw [k2]; norm_num) (by rw [k2]; norm_num) (fun _ => 1) (fun j => 1 +
      leadTimes2 2 30e-9 60e-9 70e-9 2070e-9 5 1 2 10e-9 3 4 10e-9 ((((400 : Nat) : ℝ) - 1) / 10 ^ 8) (j / 10 ^ 8))
    (height := 2) (tFall := 30e-9) (tRise := 60e-9) (beginRise := 70e-9) (beginFall := 2070e-9) (offset := 5) (slope := 1)
    (line := 2) (lengthFall := 10e-9) (slope1 := 3) (line1 := 4) (lengthRise := 10e-9) (by norm_num) (by norm_num) (by norm_num)
    (by norm_num) (by norm_num [defaultLead]) (by norm_num) (by norm_num [defaultLead]) (by norm_num [defaultLead])
    (by norm_num [defaultLead]) (by norm_num [defaultLead]) (by norm_num [defaultLead]) (by norm_num [defaultLead]) (by norm_num)
    (fun j _ => by simp [defaultLead])

/-- A response with the times 30 ns and 60 ns and default settings. -/
example (N : Numerics) (hN : N.Exact) : (prefitEvaluate N (.ok (.d2 400 [lineOf 400 fun _ => 1, lineOf 400 fun j => 1 +
      leadTimes1 2 30e-9 60e-9 70e-9 2070e-9 5 ((((400 : Nat) : ℝ) - 1) / 10 ^ 8) (j / 10 ^ 8)])) defaultLead).2 =
    .ok ([("parameter_time_rise", some 60e-9), ("parameter_time_fall", some 30e-9)],
      [("parameter_time_rise", some (60e-9 / 5)), ("parameter_time_fall", some (30e-9 / 5))]) :=
  prefit_true_times hN defaultLead (by norm_num [defaultLead]) (by norm_num [defaultLead]) (by norm_num [defaultLead]) (n := 400)
    (m := 7) (e := 207) (fun _ => 1) (fun j => 1 +
      leadTimes1 2 30e-9 60e-9 70e-9 2070e-9 5 ((((400 : Nat) : ℝ) - 1) / 10 ^ 8) (j / 10 ^ 8)) (height := 2)
    (beginRise := 70e-9) (beginFall := 2070e-9) (offset := 5) (by norm_num) (by norm_num) (by norm_num)
    (by norm_num [defaultLead]) (by norm_num [defaultLead]) (by norm_num [defaultLead]) (by norm_num [defaultLead]) (by norm_num)
    (fun j _ => by simp [defaultLead])

/-- A scan with 401 points that begins with the rise. -/
example : ∃ N : Numerics, N.Exact ∧ (prefitEvaluate N (.ok (.d2 401 [lineOf 401 fun _ => 1, lineOf 401 fun j => 1 +
      leadTimes1 2 30e-9 60e-9 0 halfTime 5 ((((401 : Nat) : ℝ) - 1) / 10 ^ 8) (j / 10 ^ 8)])) defaultLead).2 =
    .ok ([("parameter_time_rise", some 30e-9), ("parameter_time_fall", some 60e-9)],
      [("parameter_time_rise", some (30e-9 / 5)), ("parameter_time_fall", some (60e-9 / 5))]) :=
  tunnel_times_swapped_refuted defaultLead (by norm_num [defaultLead]) (by norm_num [defaultLead]) (by norm_num [defaultLead]) (n := 401)
    (by norm_num) (by norm_num [defaultLead, halfTime]) (fun _ => 1) (fun j => 1 +
      leadTimes1 2 30e-9 60e-9 0 halfTime 5 ((((401 : Nat) : ℝ) - 1) / 10 ^ 8) (j / 10 ^ 8)) (height := 2) (offset := 5)
    (by norm_num) (by norm_num) (fun j _ => by simp [defaultLead])

end Qtune.Evaluator.Fit
