import Verif.Evaluator.FitSpec
import Verif.Signal.Props

/-!
# Lemmas on the evaluators that fit curves
-/

namespace Qtune.Evaluator.Fit

open Classical

theorem pyRound_bounds (x : ℝ) : x - 1 / 2 ≤ pyRound x ∧ (pyRound x : ℝ) ≤ x + 1 / 2 := by
  have h1 := Int.floor_add_fract x
  have h2 := Int.fract_nonneg x
  have h3 := Int.fract_lt_one x
  unfold pyRound
  split
  · constructor <;> linarith
  · split
    · push_cast; constructor <;> linarith
    · have h4 : Int.fract x = 1 / 2 := le_antisymm (not_lt.1 ‹_›) (not_lt.1 ‹_›)
      split
      · constructor <;> linarith
      · push_cast; constructor <;> linarith

theorem quarter {n : Nat} (hn : 3 ≤ n) : 1 ≤ (pyRound (1 / 4 * n)).toNat ∧ (pyRound (1 / 4 * n)).toNat ≤ n := by
  have hn' : (3 : ℝ) ≤ n := by exact_mod_cast hn
  obtain ⟨h1, h2⟩ := pyRound_bounds (1 / 4 * n)
  have h3 : (0 : ℝ) < pyRound (1 / 4 * n) := by linarith
  have h4 : (0 : Int) < pyRound (1 / 4 * n) := by exact_mod_cast h3
  have h5 : (pyRound (1 / 4 * n) : ℝ) ≤ n := by linarith
  have h6 : pyRound (1 / 4 * (n : ℝ)) ≤ (n : Int) := by exact_mod_cast h5
  omega

theorem pyIndex_ok {α : Type} {l : List α} {i : Int} (h0 : 0 ≤ i) (h1 : i < l.length) :
    ∃ a, pyIndex l i = .ok a := by
  unfold pyIndex
  rw [if_pos h0, List.getElem?_eq_getElem (by omega)]
  exact ⟨_, rfl⟩

theorem pyIndex_last {α : Type} {l : List α} (h : l ≠ []) : ∃ a, pyIndex l (-1) = .ok a := by
  have := List.length_pos_iff.2 h
  unfold pyIndex
  rw [if_neg (by omega), if_pos (by omega), List.getElem?_eq_getElem (by omega)]
  exact ⟨_, rfl⟩

theorem pyIndex_first {α : Type} {l : List α} (h : l ≠ []) : ∃ a, pyIndex l 0 = .ok a :=
  pyIndex_ok le_rfl (by have := List.length_pos_iff.2 h; omega)

theorem subtractShifted_length (w m : Nat) (d : List ℝ) : (Signal.subtractShifted w m d).length = d.length := by
  unfold Signal.subtractShifted
  induction m with
  | zero => rfl
  | succ m ih => rw [List.range_succ, List.foldl_append]; simpa using ih

theorem leadIndex_ok {d : List ℝ} {w : Nat} (h : w + 1 < d.length) : ∃ i, Signal.leadIndex d w = .ok i := by
  unfold Signal.leadIndex
  rw [if_neg (by omega)]
  dsimp only
  split
  next hn =>
    rw [Signal.argmax_none] at hn
    have := congrArg List.length hn
    rw [List.length_take, List.length_map, subtractShifted_length, List.length_nil] at this
    omega
  next i _ => exact ⟨_, rfl⟩

theorem linspaceList_length (a b : ℝ) (n : Nat) : (linspaceList a b n).length = n := by simp [linspaceList]

theorem averaged_length {n : Nat} {data : NdArray} (h : LineScan n data) : data.averaged.length = n := by
  cases data with
  | d1 l => exact h
  | d2 w rows => simpa [NdArray.averaged] using h.1
  | more => exact h.elim

theorem averaged_present {n : Nat} {data : NdArray} (h : LineScan n data) (hn : none ∉ data.entries) :
    none ∉ data.averaged := by
  cases data with
  | d1 l => exact hn
  | d2 w rows =>
    obtain ⟨rfl, hne, hl⟩ := h
    intro hm
    obtain ⟨j, hj, hj'⟩ := List.mem_map.1 hm
    have hjn := List.mem_range.1 hj
    obtain ⟨r, hr⟩ := List.exists_mem_of_ne_nil rows hne
    have hrl := hl r hr
    have hv : r.getD j none ∈ r := by
      rw [List.getD_eq_getElem?_getD, List.getElem?_eq_getElem (by omega), Option.getD_some]; exact List.getElem_mem _
    cases hx : r.getD j none with
    | none => exact hn (List.mem_flatten.2 ⟨r, hr, hx ▸ hv⟩)
    | some v =>
      unfold nanmean at hj'
      split at hj'
      next h0 =>
        have : v ∈ present (rows.map fun r => r.getD j none) :=
          List.mem_filterMap.2 ⟨some v, List.mem_map.2 ⟨r, hr, hx⟩, rfl⟩
        rw [h0] at this
        simp at this
      next => cases hj'
  | more => exact h.elim

theorem zipWith_sub_present {a b : List Val} (ha : none ∉ a) (hb : none ∉ b) : none ∉ a.zipWith Val.sub b := by
  intro h
  obtain ⟨i, hi, he⟩ := List.getElem_of_mem h
  rw [List.getElem_zipWith] at he
  simp only [List.length_zipWith] at hi
  cases h1 : a[i]'(by omega) with
  | none => exact ha (h1 ▸ List.getElem_mem _)
  | some x => cases h2 : b[i]'(by omega) with
    | none => exact hb (h2 ▸ List.getElem_mem _)
    | some y => rw [h1, h2] at he; cases he

/-- The start values of a fit of the tunnel times can be calculated for at least three points. -/
theorem leadStart_ok (s : Start) {y : List Val} (hy : 3 ≤ y.length) : ∃ p, leadStart s y = .ok p ∧ p.length = 6 := by
  have hn : (3 : ℝ) ≤ y.length := by exact_mod_cast hy
  have key : ∀ c : ℝ, 0 ≤ c → c ≤ 3 / 4 → 1 / 4 ≤ c →
      0 ≤ pyRound (c * y.length) ∧ pyRound (c * (y.length : ℝ)) < y.length := by
    intro c h0 h1 h2
    obtain ⟨a, b⟩ := pyRound_bounds (c * y.length)
    have e1 : c * (y.length : ℝ) ≤ 3 / 4 * y.length := by gcongr
    have e2 : 1 / 4 * (y.length : ℝ) ≤ c * y.length := by gcongr
    have c1 : (0 : ℝ) < pyRound (c * y.length) := by linarith
    have c2 : (pyRound (c * y.length) : ℝ) < (y.length : ℝ) := by linarith
    exact ⟨le_of_lt (by exact_mod_cast c1), by exact_mod_cast c2⟩
  obtain ⟨a, ha⟩ := pyIndex_ok (l := y) (key (1 / 4) (by norm_num) (by norm_num) (by norm_num)).1
    (key (1 / 4) (by norm_num) (by norm_num) (by norm_num)).2
  obtain ⟨b, hb⟩ := pyIndex_ok (l := y) (key (3 / 4) (by norm_num) (by norm_num) (by norm_num)).1
    (key (3 / 4) (by norm_num) (by norm_num) (by norm_num)).2
  unfold leadStart
  rw [ha, hb]
  exact ⟨_, rfl, rfl⟩

theorem shortLine_ok {x : List ℝ} {y : List Val} (hx : x.length = y.length) {b : Int} (h0 : 0 ≤ b)
    (h1 : b + 2 < y.length) : ∃ l, shortLine x y b = .ok l ∧ l.length = 3 := by
  obtain ⟨a1, h1'⟩ := pyIndex_ok (l := y) (i := b + 2) (by omega) h1
  obtain ⟨a2, h2'⟩ := pyIndex_ok (l := y) (i := b) h0 (by omega)
  obtain ⟨a3, h3'⟩ := pyIndex_ok (l := x) (i := b + 2) (by omega) (by omega)
  obtain ⟨a4, h4'⟩ := pyIndex_ok (l := x) (i := b) h0 (by omega)
  unfold shortLine
  rw [h1', h2', h3', h4']
  exact ⟨_, rfl, rfl⟩

/-- The first fit of `NewLoadTime`. -/
theorem loadProcess_first (N : Numerics) (c c' : ℝ) {n : Nat} {y x : List Val} (hy : y ≠ []) :
    ∃ P : Problem, P.y = y ∧ P.p0.length = 3 ∧
      ∀ e, N.curveFit P = .error e → loadProcess N c c' (.array (.d2 n [y, x])) = .error e := by
  obtain ⟨a, ha⟩ := pyIndex_first hy
  obtain ⟨b, hb⟩ := pyIndex_last hy
  refine ⟨⟨fun p => loadModel (p.getD 0 0) (p.getD 1 0) (p.getD 2 0), [(present y).min?, a.sub b, some c], none,
            [⊥, ⊥, (2 : ℝ)], [⊤, ⊤, (300 : ℝ)], x.map fun v => Option.getD v 0, y⟩, rfl, rfl, fun e he => ?_⟩
  unfold loadProcess
  simp only [Raw.row, List.getElem?_cons_succ, List.getElem?_cons_zero, nanmin, if_neg hy, ha, hb, he]

theorem difference_two (n : Nat) (a b : List Val) :
    difference (.array (.d2 n [a, b])) = .ok (b.zipWith Val.sub a) := by
  simp [difference, Raw.row]

/-- The first fit of `LeadTunnelTimePrefitVersion`. -/
theorem prefit_first (N : Numerics) (rate : ℝ) (s : Start) {n : Nat} {a b : List Val} (hn : 3 ≤ n)
    (ha : a.length = n) (hb : b.length = n) :
    ∃ P : Problem, P.y = b.zipWith Val.sub a ∧
      ∀ e, N.curveFit P = .error e → prefitProcess N rate s (.array (.d2 n [a, b])) = .error e := by
  obtain ⟨p, hp, -⟩ := leadStart_ok s (y := b.zipWith Val.sub a) (by simp [ha, hb, hn])
  unfold prefitProcess
  rw [difference_two]
  simp only [hp]
  refine ⟨⟨fun p t => leadTimes1 (p.getD 0 0) (p.getD 1 0) (p.getD 2 0) (p.getD 3 0)
      (p.getD 4 0) (p.getD 5 0) (((List.range (b.zipWith Val.sub a).length).map
      fun (i : Nat) => (i : ℝ) / rate).getLastD 0) t,
    p, none, [⊥, 0, 0, ⊥, ⊥, ⊥], [⊤, ⊤, ⊤, ⊤, ⊤, ⊤],
    (List.range (b.zipWith Val.sub a).length).map fun (i : Nat) => (i : ℝ) / rate, b.zipWith Val.sub a⟩, rfl, ?_⟩
  intro e he
  rw [he]

/-- The fit of `LeadTunnelTimeByLeadScan`. -/
theorem scan_first (N : Numerics) (rate : ℝ) (s : Start) {n : Nat} {a b : List Val} (hn : 3 ≤ n)
    (ha : a.length = n) (hb : b.length = n) (h0 : 0 ≤ pyRound (s.beginRise / 10e-9))
    (h1 : pyRound (s.beginRise / 10e-9) + 2 < n) (h2 : 0 ≤ pyRound (s.beginFall / 10e-9))
    (h3 : pyRound (s.beginFall / 10e-9) + 2 < n) :
    ∃ P : Problem, P.y = b.zipWith Val.sub a ∧ scanProcess N rate s (.array (.d2 n [a, b])) = N.curveFit P := by
  have hl : (b.zipWith Val.sub a).length = n := by simp [ha, hb]
  obtain ⟨p, hp, -⟩ := leadStart_ok s (y := b.zipWith Val.sub a) (by omega)
  have hx : ((List.range (b.zipWith Val.sub a).length).map fun (i : Nat) => (i : ℝ) / rate).length =
    (b.zipWith Val.sub a).length := by simp
  obtain ⟨l, hl', -⟩ := shortLine_ok hx h2 (by omega)
  obtain ⟨l1, hl1, -⟩ := shortLine_ok hx h0 (by omega)
  unfold scanProcess
  rw [difference_two]
  simp only [hp, hl', hl1]
  exact ⟨_, rfl, rfl⟩

/-- The first fit of `InterDotTCByLineScan`: for at least three points its start values can be calculated. -/
theorem interDotFit_first (N : Numerics) {x : List ℝ} {y : List Val} (hx : 3 ≤ x.length) (hy : y.length = x.length) :
    ∃ P : Problem, P.y = y ∧ ∀ e, N.curveFit P = .error e → interDotFit N x y = .error e := by
  obtain ⟨q1, q2⟩ := quarter hx
  unfold interDotFit Numerics.line
  dsimp only
  generalize (pyRound (1 / 4 * (x.length : ℝ))).toNat = q at *
  have l1 : x.take q ≠ [] := by
    intro h; have := congrArg List.length h; rw [List.length_take, List.length_nil] at this; omega
  have l2 : x.drop (x.length - q) ≠ [] := by
    intro h; have := congrArg List.length h; rw [List.length_drop, List.length_nil] at this; omega
  have q0 : ¬ q = 0 := by omega
  simp only [if_neg q0, if_neg l1, if_neg l2]
  generalize N.polyfit (x.drop (x.length - q)) (y.drop (y.length - q)) = stop
  obtain ⟨i, hi⟩ := leadIndex_ok (d := (x.zip y).map fun xy =>
    Option.getD ((xy.2.sub stop.2).sub (stop.1.mul (some xy.1))) 0) (w := x.length / 12)
    (by rw [List.length_map, List.length_zip, hy]; omega)
  rw [hi]
  refine ⟨⟨fun p => interDotModel (p.getD 0 0) (p.getD 1 0) (p.getD 2 0) (p.getD 3 0) (p.getD 4 0),
    [(N.polyfit (x.take q) (y.take q)).2, (N.polyfit (x.take q) (y.take q)).1,
      (stop.2.add (stop.1.mul (some (x.getLastD 0)))).sub ((N.polyfit (x.take q) (y.take q)).2.add
        ((N.polyfit (x.take q) (y.take q)).1.mul (some (x.getLastD 0)))),
      some (x.getD i 0), some ((x.getLastD 0 - x.headD 0) / 8)], none, [], [], x, y⟩, rfl, fun e he => ?_⟩
  dsimp only
  rw [he]

end Qtune.Evaluator.Fit
