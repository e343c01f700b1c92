import Verif.Evaluator.FitExactLemmas

/-!
# Fits of exact data (C143)
-/

namespace Qtune.Evaluator.Fit

open Classical

/-! ## `NewLoadTime` -/

/-- **C143**, `NewLoadTime`.  If the measured values (first row) decay exponentially with the waiting times (second row) with
the time constant `T` between 2 and 300, and there are at least three different waiting times, `evaluate` returns `T` with the
error 0 and stores the decay as the result of the fit. -/
theorem load_curve_of_exact_data {N : Numerics} (hN : N.Exact) (ev : LoadTime) (h1 : 2 ≤ ev.initialCurvature)
    (h2 : ev.initialCurvature ≤ 300) (times : List ℝ) {x y z : ℝ} (hx : x ∈ times) (hy : y ∈ times) (hz : z ∈ times)
    (hxy : x < y) (hyz : y < z) {offset height T : ℝ} (hh : height ≠ 0) (hT : 2 ≤ T) (hT' : T ≤ 300) :
    ∃ ev', ev.evaluate N (.ok (.d2 times.length
      [times.map fun t => some (offset + height * Real.exp (-t / T)), times.map some])) =
      (ev', .ok ([("parameter_time_load", some T)], [("parameter_time_load", some 0)])) ∧
      ev'.fitResults = some [("offset", some offset), ("height", some height), ("curvature", some T)] := by
  have hne : times ≠ [] := List.ne_nil_of_mem hx
  generalize hyd : (times.map fun t => some (offset + height * Real.exp (-t / T)) : List Val) = ys
  have hys : ys ≠ [] := by rw [← hyd]; simpa using hne
  have hysn : none ∉ ys := by rw [← hyd]; exact none_notMem_map_some _ _
  obtain ⟨a, ha⟩ := pyIndex_first hys
  obtain ⟨b, hb⟩ := pyIndex_last hys
  obtain ⟨a', rfl⟩ := isSome_of_notMem hysn (pyIndex_mem ha)
  obtain ⟨b', rfl⟩ := isSome_of_notMem hysn (pyIndex_mem hb)
  obtain ⟨m, hm⟩ : ∃ m, (present ys).min? = some m := by
    cases hc : (present ys).min? with
    | some m => exact ⟨m, rfl⟩
    | none =>
      rw [List.min?_eq_none_iff, ← hyd, present_map_some] at hc
      exact absurd (List.map_eq_nil_iff.1 hc) hne
  have hxs : (times.map some).map (fun v => Option.getD v 0) = times := by simp
  obtain ⟨r, hr, hthrough⟩ := hN.fit
    ⟨fun p => loadModel (p.getD 0 0) (p.getD 1 0) (p.getD 2 0), [some m, some (a' - b'), some ev.initialCurvature], none,
      [⊥, ⊥, (2 : ℝ)], [⊤, ⊤, (300 : ℝ)], times, ys⟩ [m, a' - b', ev.initialCurvature] rfl
    ⟨rfl, by
      intro i e hi hil
      match i, hi with
      | 0, hi => simp at hi; simp [← hi]
      | 1, hi => simp at hi; simp [← hi]
      | 2, hi => simp at hi; subst hi; simpa using h1, by
      intro i e hi hil
      match i, hi with
      | 0, hi => simp at hi; simp [← hi]
      | 1, hi => simp at hi; simp [← hi]
      | 2, hi => simp at hi; subst hi; simpa using h2⟩
    ⟨[offset, height, T], ⟨rfl, by
      intro i e hi hil
      match i, hi with
      | 0, hi => simp at hi; simp [← hi]
      | 1, hi => simp at hi; simp [← hi]
      | 2, hi => simp at hi; subst hi; simpa using hT, by
      intro i e hi hil
      match i, hi with
      | 0, hi => simp at hi; simp [← hi]
      | 1, hi => simp at hi; simp [← hi]
      | 2, hi => simp at hi; subst hi; simpa using hT'⟩, by
        simp only [Problem.Through, ← hyd, loadModel, List.getD_cons_zero, List.getD_cons_succ, neg_mul, one_mul]⟩
  have hsize := hN.spec.size _ _ hr
  have hlow := hN.spec.lower _ _ hr 2 (2 : ℝ) rfl (by simp at hsize; omega)
  have hlow' : 2 ≤ r.getD 2 0 := EReal.coe_le_coe_iff.1 hlow
  have hsame : ∀ t ∈ times, offset + height * Real.exp (-t / T) =
      r.getD 0 0 + r.getD 1 0 * Real.exp (-t / r.getD 2 0) := by
    intro t ht
    simp only [Problem.Through, ← hyd] at hthrough
    have := (List.map_inj_left.1 hthrough) t ht
    simpa [loadModel] using this
  obtain ⟨e1, e2, e3⟩ := exp_curve_unique (by linarith) (by linarith) hh hxy hyz (hsame x hx) (hsame y hy) (hsame z hz)
  have hthrough' : ys = times.map fun t => some (loadModel (r.getD 0 0) (r.getD 1 0) (r.getD 2 0) t) := hthrough
  have hres : loadResidual times ys r = some 0 := by
    unfold loadResidual
    dsimp only
    rw [hthrough', zip_exact, List.map_map]
    have : ((fun v : Val => v.mul v) ∘ fun _ : ℝ => (some 0 : Val)) = fun _ => some 0 := by
      funext t; simp
    rw [this, nanmean_zero _ hne, ← e2, Val.div_some (mul_ne_zero hh hh)]
    simp
  have hproc : loadProcess N ev.initialCurvature ev.startCurvature (.array (.d2 times.length [ys, times.map some])) =
      .ok (r, some 0, ev.initialCurvature) := by
    unfold loadProcess
    simp only [Raw.row, List.getElem?_cons_succ, List.getElem?_cons_zero, nanmin, if_neg hys, ha, hb, hxs, hm,
      Val.sub_some, hr, hres]
    rw [if_neg (by linarith)]
  have hfit : loadLabels.zip (r.map some) = [("offset", some offset), ("height", some height), ("curvature", some T)] := by
    match r, hsize, e1, e2, e3 with
    | [r0, r1, r2], _, e1, e2, e3 => rw [e1, e2, e3]; rfl
  refine ⟨(ev.evaluate N (.ok (.d2 times.length [ys, times.map some]))).1, Prod.ext rfl ?_, ?_⟩
  · simp only [LoadTime.evaluate, hproc, Raw.row, List.getElem?_cons_succ, List.getElem?_cons_zero, hfit]
    rfl
  · simp only [LoadTime.evaluate, hproc, Raw.row, List.getElem?_cons_succ, List.getElem?_cons_zero, hfit]

/-- **C143**, `NewLoadTime`.  If the measured values (first row) decay exponentially with the waiting times (second row) with
the time constant `T` between 2 and 300, and there are at least three different waiting times, `evaluate` returns `T` with the
error 0. -/
theorem load_time_of_exact_data {N : Numerics} (hN : N.Exact) (ev : LoadTime) (h1 : 2 ≤ ev.initialCurvature)
    (h2 : ev.initialCurvature ≤ 300) (times : List ℝ) {x y z : ℝ} (hx : x ∈ times) (hy : y ∈ times) (hz : z ∈ times)
    (hxy : x < y) (hyz : y < z) {offset height T : ℝ} (hh : height ≠ 0) (hT : 2 ≤ T) (hT' : T ≤ 300) :
    (ev.evaluate N (.ok (.d2 times.length
      [times.map fun t => some (offset + height * Real.exp (-t / T)), times.map some]))).2 =
    .ok ([("parameter_time_load", some T)], [("parameter_time_load", some 0)]) := by
  obtain ⟨ev', h, -⟩ := load_curve_of_exact_data hN ev h1 h2 times hx hy hz hxy hyz (offset := offset) hh hT hT'
  rw [h]

/-! ## `InterDotTCByLineScan` -/

/-- The function that `InterDotTCByLineScan` fits, for a list of parameters. -/
noncomputable def interDotCurve (p : List ℝ) : ℝ → ℝ :=
  interDotModel (p.getD 0 0) (p.getD 1 0) (p.getD 2 0) (p.getD 3 0) (p.getD 4 0)

/-- The fits of exact data.  `Q` is something known about every width that the fit routine returns for them. -/
theorem interDotFit_exact {N : Numerics} (hN : N.Exact) {x : List ℝ} (hx : 3 ≤ x.length)
    (hptp : x.getLastD 0 - x.headD 0 ≠ 0) {o s h p w : ℝ} (Q : ℝ → Prop)
    (hQ : ∀ (P : Problem) (r : List ℝ), P.model = interDotCurve → P.p0.length = 5 → P.lower = [] → P.upper = [] → P.x = x →
      P.y = (x.map fun t => (some (interDotModel o s h p w t) : Val)) → N.curveFit P = .ok r → Q (r.getD 4 0)) :
    ∃ r : List ℝ, Q (r.getD 4 0) ∧ r.length = 5 ∧
      (x.map fun t => (some (interDotModel o s h p w t) : Val)) = (x.map fun t =>
        some (interDotModel (r.getD 0 0) (r.getD 1 0) (r.getD 2 0) (r.getD 3 0) (r.getD 4 0) t)) ∧
      interDotFit N x (x.map fun t => some (interDotModel o s h p w t)) =
        .ok (r, interDotResidual x (x.map fun t => some (interDotModel o s h p w t)) r) := by
  generalize hy : (x.map fun t => (some (interDotModel o s h p w t) : Val)) = y at *
  have hyl : y.length = x.length := by simp [← hy]
  have hyn : none ∉ y := by rw [← hy]; exact none_notMem_map_some _ _
  obtain ⟨q1, q2⟩ := quarter hx
  unfold interDotFit Numerics.line
  dsimp only
  generalize (pyRound (1 / 4 * (x.length : ℝ))).toNat = q at *
  have l1 : x.take q ≠ [] := by
    intro h; have := congrArg List.length h; rw [List.length_take, List.length_nil] at this; omega
  have l2 : x.drop (x.length - q) ≠ [] := by
    intro h; have := congrArg List.length h; rw [List.length_drop, List.length_nil] at this; omega
  have q0 : ¬ q = 0 := by omega
  simp only [if_neg q0, if_neg l1, if_neg l2]
  obtain ⟨a, b, hab⟩ := hN.line (x.drop (x.length - q)) (y.drop (y.length - q))
    (fun hm => hyn (List.mem_of_mem_drop hm))
  obtain ⟨c, d, hcd⟩ := hN.line (x.take q) (y.take q) (fun hm => hyn (List.mem_of_mem_take hm))
  rw [hab, hcd]
  dsimp only
  obtain ⟨i, hi⟩ := leadIndex_ok (d := (x.zip y).map fun xy =>
    Option.getD (Val.sub (Val.sub xy.2 (some b)) (Val.mul (some a) (some xy.1))) 0) (w := x.length / 12)
    (by rw [List.length_map, List.length_zip, hyl]; omega)
  rw [hi]
  dsimp only
  simp only [Val.mul_some, Val.add_some, Val.sub_some]
  obtain ⟨r, hr, hrt⟩ := hN.fit
    ⟨fun p => interDotModel (p.getD 0 0) (p.getD 1 0) (p.getD 2 0) (p.getD 3 0) (p.getD 4 0),
      [some d, some c, some (b + a * x.getLastD 0 - (d + c * x.getLastD 0)), some (x.getD i 0),
        some ((x.getLastD 0 - x.headD 0) / 8)], none, [], [], x, y⟩
    [d, c, b + a * x.getLastD 0 - (d + c * x.getLastD 0), x.getD i 0, (x.getLastD 0 - x.headD 0) / 8] rfl
    ⟨rfl, by simp, by simp⟩ ⟨[o, s, h, p, w], ⟨rfl, by simp, by simp⟩, by
      simp only [Problem.Through, ← hy, List.getD_cons_zero, List.getD_cons_succ]⟩
  have hsize := hN.spec.size _ _ hr
  obtain ⟨r', hr', hrt'⟩ := hN.fit
    ⟨fun p => interDotModel (p.getD 0 0) (p.getD 1 0) (p.getD 2 0) (p.getD 3 0) (p.getD 4 0),
      (r.set 4 130e-6).map some, some (interDotWeights x.length (x.getLastD 0 - x.headD 0) (r.getD 3 0)), [], [], x, y⟩
    (r.set 4 130e-6) rfl ⟨by simp, by simp, by simp⟩ ⟨r, ⟨by simp, by simp, by simp⟩, hrt⟩
  have hsize' := hN.spec.size _ _ hr'
  refine ⟨r', hQ _ r' rfl (by simp at hsize ⊢; omega) rfl rfl rfl rfl hr', ?_, hrt', ?_⟩
  · simp at hsize hsize'; omega
  · rw [hr]
    dsimp only
    rw [if_neg hptp, hr']

theorem getLastD_linspace {a b : ℝ} {n : Nat} (hn : 2 ≤ n) :
    (linspaceList a b n).getLastD 0 = b ∧ (linspaceList a b n).headD 0 = a := by
  obtain ⟨k, rfl⟩ : ∃ k, n = k + 2 := ⟨n - 2, by omega⟩
  have hk : (k : ℝ) + 1 ≠ 0 := by positivity
  constructor
  · rw [List.getLastD_eq_getLast?, linspaceList, List.getLast?_map, List.getLast?_range]
    simp only [Nat.add_eq_zero_iff, OfNat.ofNat_ne_zero, and_false, ↓reduceIte, Option.map_some, Option.getD_some]
    push_cast
    have e1 : (k : ℝ) + 2 - 1 = k + 1 := by ring
    rw [e1]
    field_simp
    ring
  · simp [linspaceList, List.range_succ_eq_map]

/-- Rows that are all the same have this row as their mean. -/
theorem averaged_const {n : Nat} {ln : List Val} (hl : ln.length = n) (hs : none ∉ ln) {rows : List (List Val)}
    (hne : rows ≠ []) (hrows : ∀ r ∈ rows, r = ln) : (NdArray.d2 n rows).averaged = ln := by
  unfold NdArray.averaged
  apply List.ext_getElem
  · simp [hl]
  · intro j h1 h2
    rw [List.getElem_map, List.getElem_range]
    have hmem : ln[j]'h2 ∈ ln := List.getElem_mem _
    obtain ⟨v, hv⟩ := isSome_of_notMem hs hmem
    have : rows.map (fun r => r.getD j none) = rows.map fun _ => some v := by
      apply List.map_congr_left
      intro r hr
      rw [hrows r hr, List.getD_eq_getElem?_getD, List.getElem?_eq_getElem h2, Option.getD_some, hv]
    rw [this, hv]
    unfold nanmean
    rw [present_map_some rows (fun _ => v)]
    have h0 : rows.map (fun _ => v) ≠ [] := by simpa using hne
    have h3 : (rows.length : ℝ) ≠ 0 := by
      have := List.length_pos_iff.2 hne
      exact_mod_cast this.ne'
    rw [if_neg h0]
    simp only [List.map_const', List.sum_replicate, List.length_replicate, nsmul_eq_mul, Option.some.injEq]
    field_simp

/-- A line scan or several equal ones that show the signal `f` at the points of the scan. -/
def Shows (center range : ℝ) (n : Nat) (f : ℝ → ℝ) : NdArray → Prop
  | .d1 l => l = lineOf n fun j => f (scanPoint center range n j)
  | .d2 w rows => w = n ∧ rows ≠ [] ∧ ∀ r ∈ rows, r = lineOf n fun j => f (scanPoint center range n j)
  | .more => False

/-- The result of `evaluate` for exact data, with what is known about widths that the fit routine returns. -/
theorem tunnel_coupling_core {N : Numerics} (hN : N.Exact) (ev : InterDot) (hrange : ev.range ≠ 0) {n : Nat}
    (hn : 3 ≤ n) {data : NdArray} {offset slope height position width : ℝ}
    (hd : Shows ev.center ev.range n (transition offset slope height position width) data)
    (Q : ℝ → Prop)
    (hQ : ∀ (P : Problem) (r : List ℝ), P.model = interDotCurve → P.p0.length = 5 → P.lower = [] → P.upper = [] →
      P.y = (P.x.map fun t => (some (interDotModel offset slope height position width t) : Val)) →
      N.curveFit P = .ok r → Q (r.getD 4 0)) :
    ∃ ev' offset' slope' height' position' width' error,
      ev.evaluate N (.ok data) = (ev', .ok ([("parameter_tunnel_coupling", some width')],
        [("parameter_tunnel_coupling", error)])) ∧
      (∀ j < n, transition offset' slope' height' position' width' (scanPoint ev.center ev.range n j) =
        transition offset slope height position width (scanPoint ev.center ev.range n j)) ∧
      ev'.fitResults = some [("offset", some offset'), ("slope", some slope'), ("height", some height'),
        ("position", some position'), ("width", some width')] ∧
      (height' ≠ 0 → error = some 0) ∧ Q width' := by
  have hm : ∀ a b c d e x, interDotModel a b c d e x = transition a b c d e x := by
    intro a b c d e x; unfold interDotModel transition; ring
  have hpt : linspaceList (ev.center - ev.range) (ev.center + ev.range) n =
      (List.range n).map fun j => scanPoint ev.center ev.range n j := by
    unfold linspaceList scanPoint
    apply List.map_congr_left
    intro j _
    ring
  generalize hxs : linspaceList (ev.center - ev.range) (ev.center + ev.range) n = xs at *
  have hxl : xs.length = n := by rw [← hxs, linspaceList_length]
  have hends := getLastD_linspace (a := ev.center - ev.range) (b := ev.center + ev.range) (n := n) (by omega)
  rw [hxs] at hends
  have hne : xs ≠ [] := by rintro rfl; simp at hxl; omega
  obtain ⟨r, hq, hr5, hsame, hfit⟩ := interDotFit_exact hN (x := xs) (by omega) (by
    rw [hends.1, hends.2]; intro h; apply hrange; linarith) (o := offset) (s := slope) (h := height) (p := position)
    (w := width) Q (fun P r e1 e2 e3 e4 e5 e6 => hQ P r e1 e2 e3 e4 (by rw [e6, e5]))
  have hline : (xs.map fun t => (some (interDotModel offset slope height position width t) : Val)) =
      lineOf n fun j => transition offset slope height position width (scanPoint ev.center ev.range n j) := by
    rw [hpt, List.map_map, lineOf]
    apply List.map_congr_left
    intro j _
    simp [hm]
  have hproc : ∀ rawY : Raw, (∃ d, rawY = .array d ∧ Shows ev.center ev.range n
      (transition offset slope height position width) d) →
      interDotProcess N (.pair (ev.points n) rawY) = .ok (r, interDotResidual xs (xs.map fun t =>
        some (interDotModel offset slope height position width t)) r) := by
    rintro rawY ⟨d, rfl, hd⟩
    have hxx : (xs.map some).map (fun v => Option.getD v 0) = xs := by simp
    cases d with
    | d1 l =>
      have hl : l = _ := hd
      simp only [InterDot.points, interDotProcess, hxs, hxx]
      rw [hl, ← hline, hfit]
    | d2 w rows =>
      obtain ⟨rfl, h1, h2⟩ := hd
      simp only [InterDot.points, interDotProcess, hxs, hxx]
      rw [averaged_const (ln := xs.map fun t => some (interDotModel offset slope height position width t))
        (by simpa using hxl) (none_notMem_map_some _ _) h1 (by rw [hline]; exact h2), hfit]
    | more => exact hd.elim
  have hfin : ∀ ev0 : InterDot, ev0.rawX = ev.points n → (∃ d, ev0.rawY = .array d ∧ Shows ev.center ev.range n
      (transition offset slope height position width) d) →
      ev0.finish N = ({ ev0 with fitResults := some (interDotLabels.zip (r.map some)) },
        .ok ([("parameter_tunnel_coupling", some (r.getD 4 0))], [("parameter_tunnel_coupling",
          interDotResidual xs (xs.map fun t => some (interDotModel offset slope height position width t)) r)])) := by
    intro ev0 h1 h2
    unfold InterDot.finish
    rw [h1, hproc _ h2]
  have heval : ∃ ev0 : InterDot, ev0.rawX = ev.points n ∧ ev0.rawY = .array data ∧
      ev.evaluate N (.ok data) = ev0.finish N := by
    cases data with
    | d1 l =>
      have hl : l.length = n := by
        have : l = _ := hd
        rw [this]; simp [lineOf]
      exact ⟨{ ev with rawY := .array (.d1 l), rawX := ev.points l.length }, by rw [hl], rfl, rfl⟩
    | d2 w rows => obtain ⟨rfl, -, -⟩ := hd; exact ⟨_, rfl, rfl, rfl⟩
    | more => exact hd.elim
  obtain ⟨ev0, h1, h2, h3⟩ := heval
  match r, hr5, hsame, hfin ev0 h1 ⟨data, h2, hd⟩, hq with
  | [r0, r1, r2, r3, r4], _, hsame, hf, hq =>
    refine ⟨_, r0, r1, r2, r3, r4, _, h3.trans hf, ?_, rfl, ?_, hq⟩
    · intro j hj
      have hjm : scanPoint ev.center ev.range n j ∈ xs := by
        rw [hpt]; exact List.mem_map.2 ⟨j, List.mem_range.2 hj, rfl⟩
      have := (List.map_inj_left.1 hsame) _ hjm
      simpa [hm] using this.symm
    · intro hh
      rw [hsame]
      unfold interDotResidual
      dsimp only
      simp only [List.getD_cons_zero, List.getD_cons_succ]
      rw [zip_drop, ← List.map_drop, zip_exact, List.map_map]
      have hfl : ⌊(3 / 10 : ℝ) * xs.length⌋₊ < xs.length := by
        have hx0 : (0 : ℝ) < xs.length := by exact_mod_cast List.length_pos_iff.2 hne
        have h1 : (⌊(3 / 10 : ℝ) * xs.length⌋₊ : ℝ) ≤ (3 / 10 : ℝ) * xs.length := Nat.floor_le (by positivity)
        have h2 : (⌊(3 / 10 : ℝ) * xs.length⌋₊ : ℝ) < xs.length := by linarith
        exact_mod_cast h2
      have : ((fun v : Val => v.mul v) ∘ fun _ : ℝ => (some 0 : Val)) = fun _ => some 0 := by
        funext t; simp
      rw [this, nanmean_zero _ (by
        intro h0; have := congrArg List.length h0; rw [List.length_drop, List.length_nil] at this; omega),
        Val.div_some (mul_ne_zero hh hh)]
      simp

/-- **C143**, `InterDotTCByLineScan`.  If the measured values show a transition at the points of the scan (of at
least three points), `evaluate` returns the width of a transition that agrees with all of them, and the error 0 (if the
transition found has a height). -/
theorem tunnel_coupling_of_exact_data {N : Numerics} (hN : N.Exact) (ev : InterDot) (hrange : ev.range ≠ 0) {n : Nat}
    (hn : 3 ≤ n) {data : NdArray} {offset slope height position width : ℝ}
    (hd : Shows ev.center ev.range n (transition offset slope height position width) data) :
    ∃ ev' offset' slope' height' position' width' error,
      ev.evaluate N (.ok data) = (ev', .ok ([("parameter_tunnel_coupling", some width')],
        [("parameter_tunnel_coupling", error)])) ∧
      (∀ j < n, transition offset' slope' height' position' width' (scanPoint ev.center ev.range n j) =
        transition offset slope height position width (scanPoint ev.center ev.range n j)) ∧
      ev'.fitResults = some [("offset", some offset'), ("slope", some slope'), ("height", some height'),
        ("position", some position'), ("width", some width')] ∧
      (height' ≠ 0 → error = some 0) := by
  obtain ⟨ev', a, b, c, d, w, e, h1, h2, h3, h4, -⟩ := tunnel_coupling_core hN ev hrange hn hd (fun _ => True)
    (fun _ _ _ _ _ _ _ _ => trivial)
  exact ⟨ev', a, b, c, d, w, e, h1, h2, h3, h4⟩

/-- A fit routine that finds exact fits, and prefers those whose parameter 4 is negative. -/
noncomputable def contrary : Numerics where
  curveFit P :=
    if none ∈ P.y then .error .valueError
    else if h : ∃ r : List ℝ, (P.Within r ∧ P.Through r) ∧ r.getD 4 0 < 0 then .ok h.choose
    else if h : ∃ r : List ℝ, P.Within r ∧ P.Through r then .ok h.choose
    else .error (.runtimeError "Optimal parameters not found")
  polyfit _ _ := (some 0, some 0)

theorem contrary_ok (P : Problem) (r : List ℝ) (h : contrary.curveFit P = .ok r) : P.Within r ∧ P.Through r := by
  simp only [contrary] at h
  split at h
  · cases h
  · split at h
    next h' => cases h; exact h'.choose_spec.1
    · split at h
      next h' => cases h; exact h'.choose_spec
      · cases h

theorem contrary_exact : contrary.Exact := by
  refine ⟨⟨fun P h => by simp [contrary, h], fun P r h => (contrary_ok P r h).1.size,
    fun P r h => (contrary_ok P r h).1.lower, fun P r h => (contrary_ok P r h).1.upper⟩,
    fun x y _ => ⟨0, 0, rfl⟩, ?_⟩
  rintro P s - - hex
  have hn : none ∉ P.y := by
    obtain ⟨p, -, hp⟩ := hex
    rw [Problem.Through] at hp
    rw [hp]
    exact none_notMem_map_some _ _
  have hok : ∃ r, contrary.curveFit P = .ok r := by
    simp only [contrary, if_neg hn]
    split
    · exact ⟨_, rfl⟩
    · exact ⟨_, rfl⟩
  obtain ⟨r, hr⟩ := hok
  exact ⟨r, hr, (contrary_ok P r hr).2⟩

/-- The width and the height of a transition may both change their sign. -/
theorem transition_flip (offset slope height position width x : ℝ) :
    transition (offset + height) slope (-height) position (-width) x = transition offset slope height position width x := by
  unfold transition
  rw [div_neg, Real.tanh_neg]
  ring

/-- **C143** is false of `InterDotTCByLineScan`: the sign of the width is not determined by the data, and nothing in the code
makes it positive.  There is a fit routine that finds exact fits with which `evaluate` returns a negative number for
every transition. -/
theorem tunnel_coupling_sign_refuted : ∃ N : Numerics, N.Exact ∧
    ∀ (ev : InterDot) (n : Nat) (data : NdArray) (offset slope height position width : ℝ), ev.range ≠ 0 → 3 ≤ n →
      width ≠ 0 → Shows ev.center ev.range n (transition offset slope height position width) data →
      ∃ ev' w' error, ev.evaluate N (.ok data) = (ev', .ok ([("parameter_tunnel_coupling", some w')],
        [("parameter_tunnel_coupling", error)])) ∧ w' < 0 := by
  refine ⟨contrary, contrary_exact, ?_⟩
  intro ev n data offset slope height position width hrange hn hw hd
  have hQ : ∀ (P : Problem) (r : List ℝ), P.model = interDotCurve → P.p0.length = 5 → P.lower = [] → P.upper = [] →
      P.y = (P.x.map fun t => (some (interDotModel offset slope height position width t) : Val)) →
      contrary.curveFit P = .ok r → r.getD 4 0 < 0 := by
    intro P r hm h0 hl hu hy hr
    have hn : none ∉ P.y := by rw [hy]; exact none_notMem_map_some _ _
    have hflip : ∀ t, interDotModel (offset + height) slope (-height) position (-width) t =
        interDotModel offset slope height position width t := by
      intro t
      have := transition_flip offset slope height position width t
      unfold transition at this
      unfold interDotModel
      linarith
    have hin : ∀ p : List ℝ, p.length = 5 → P.Within p := by
      intro p hp
      exact ⟨by omega, by rw [hl]; simp, by rw [hu]; simp⟩
    have hex : ∃ r : List ℝ, (P.Within r ∧ P.Through r) ∧ r.getD 4 0 < 0 := by
      rcases lt_or_gt_of_ne hw with h | h
      · refine ⟨[offset, slope, height, position, width], ⟨hin _ rfl, ?_⟩, by simpa using h⟩
        rw [Problem.Through, hm, hy]; rfl
      · refine ⟨[offset + height, slope, -height, position, -width], ⟨hin _ rfl, ?_⟩, by simpa using h⟩
        rw [Problem.Through, hm, hy]
        apply List.map_congr_left
        intro t _
        rw [← hflip t]; rfl
    simp only [contrary, if_neg hn, dif_pos hex] at hr
    cases hr
    exact hex.choose_spec.2
  obtain ⟨ev', a, b, c, d, w, e, h1, h2, h3, h4, h5⟩ := tunnel_coupling_core contrary_exact ev hrange hn hd
    (fun w => w < 0) hQ
  exact ⟨ev', w, e, h1, h5⟩

/-- Cases that meet the hypotheses: there are fit routines that fit exact data, and with any of them a decay with the time
constant 50, seen at three waiting times, gives 50. -/
example : (∃ N : Numerics, N.Exact) ∧ ∀ N : Numerics, N.Exact → ∃ ev',
    (LoadTime.mk ["parameter_time_load"] 20 20 none .none .none).evaluate N (.ok (.d2 3
      [[10, 50, 200].map fun t => some (0.1 + 0.7 * Real.exp (-t / 50)), [10, 50, 200].map some])) =
      (ev', .ok ([("parameter_time_load", some 50)], [("parameter_time_load", some 0)])) := by
  refine ⟨⟨contrary, contrary_exact⟩, fun N hN => ?_⟩
  obtain ⟨ev', h, -⟩ := load_curve_of_exact_data hN (LoadTime.mk ["parameter_time_load"] 20 20 none .none .none)
    (by norm_num) (by norm_num) [10, 50, 200] (x := 10) (y := 50) (z := 200) (by simp) (by simp) (by simp) (by norm_num)
    (by norm_num) (offset := 0.1) (height := 0.7) (T := 50) (by norm_num) (by norm_num) (by norm_num)
  exact ⟨ev', h⟩

end Qtune.Evaluator.Fit
