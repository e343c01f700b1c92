import Verif.Evaluator.Dot2DModel
import Verif.Evaluator.Sd1dProps

/-!
# C177: SensingDot2D scans around the present voltages and returns a point of the scan

* `sensing_dot_scan_returns`: when an evaluation returns.
* `sensing_dot_scan_position`: where the position is.
* `sensing_dot_scan_failure`: what the evaluator knows after a failure.
-/

namespace Qtune.Evaluator

open Classical
open Fit (linspaceList)

/-- Each line of the scan around the voltage `c2` can be fitted; `curves i` is the polynomial for line `i`. -/
def Fitted (fit : List ℝ → List ℝ → Except PyErr (ℝ → ℝ)) (c2 range : ℝ) (g : Grid) (curves : Nat → ℝ → ℝ) : Prop :=
  ∀ i < g.height, fit (linspaceList (c2 - range) (c2 + range) g.width) ((List.range g.width).map (g.entry i)) = .ok (curves i)

/-- The point number `i` of a scan with `n` points around `c`. -/
noncomputable def scanPoint (c range : ℝ) (n i : Nat) : ℝ := c - range + i * (2 * range / (n - 1))

/-- A point of a line with `n` points that is not cut off at the borders, a 25th of the line at each end. -/
def InnerOfLine (n j : Nat) : Prop := n / 25 ≤ j ∧ j + n / 25 < n - 1

/-! ## Lemmas -/

theorem linspace_length (a b : ℝ) (n : Nat) : (linspaceList a b n).length = n := by simp [linspaceList]

theorem linspace_getD {c r : ℝ} {n i : Nat} (h : i < n) :
    (linspaceList (c - r) (c + r) n).getD i 0 = scanPoint c r n i := by
  rw [List.getD_eq_getElem _ _ (by rw [linspace_length]; exact h)]
  simp only [linspaceList, List.getElem_map, List.getElem_range, scanPoint]
  congr 2
  ring

theorem mapM_ok_iff {α β : Type} {f : α → Except PyErr β} : ∀ {l : List α} {r : List β},
    l.mapM f = .ok r ↔ r.length = l.length ∧ ∀ i (h : i < l.length), ∃ b, f l[i] = .ok b ∧ r[i]? = some b
  | [], r => by
    simp only [List.mapM_nil, pure, Except.pure, Except.ok.injEq, List.length_nil, List.length_eq_zero_iff]
    constructor
    · rintro rfl; exact ⟨rfl, fun i h => absurd h (by simp)⟩
    · rintro ⟨rfl, _⟩; rfl
  | a :: l, r => by
    rw [List.mapM_cons]
    cases ha : f a with
    | error e =>
      simp only [bind, Except.bind, reduceCtorEq, false_iff, not_and, not_forall]
      intro _
      exact ⟨0, by simp, by simp [ha]⟩
    | ok b =>
      cases hl : l.mapM f with
      | error e =>
        simp only [bind, Except.bind, reduceCtorEq, false_iff]
        rintro ⟨hlen, h⟩
        cases r with
        | nil => simp at hlen
        | cons x xs =>
          have := (mapM_ok_iff (f := f) (l := l) (r := xs)).2 ⟨by simpa using hlen, fun i hi => by
            exact h (i + 1) (by simpa using hi)⟩
          rw [hl] at this
          cases this
      | ok xs =>
        simp only [bind, Except.bind, pure, Except.pure, Except.ok.injEq]
        constructor
        · rintro rfl
          obtain ⟨h1, h2⟩ := mapM_ok_iff.1 hl
          refine ⟨by simp [h1], fun i hi => ?_⟩
          cases i with
          | zero => exact ⟨b, by simpa using ha, by simp⟩
          | succ i => simpa using h2 i (by simpa using hi)
        · rintro ⟨hlen, h⟩
          cases r with
          | nil => simp at hlen
          | cons y ys =>
            have h0 := h 0 (by simp)
            simp only [List.getElem_cons_zero, ha, Except.ok.injEq, exists_eq_left', List.getElem?_cons_zero, Option.some.injEq] at h0
            have := (mapM_ok_iff (f := f) (l := l) (r := ys)).2 ⟨by simpa using hlen, fun i hi => by
              exact h (i + 1) (by simpa using hi)⟩
            rw [hl, Except.ok.injEq] at this
            rw [h0, this]

theorem slopes_ok_iff {fit : List ℝ → List ℝ → Except PyErr (ℝ → ℝ)} {c r : ℝ} {g : Grid} {slopes : List (List ℝ)} :
    slopesOfLines fit (linspaceList (c - r) (c + r) g.width) ((List.range g.height).map g.row) = .ok slopes ↔
      ∃ curves, Fitted fit c r g curves ∧
        slopes = (List.range g.height).map fun i => diff ((linspaceList (c - r) (c + r) g.width).map (curves i)) := by
  unfold slopesOfLines
  rw [mapM_ok_iff]
  simp only [List.length_map, List.length_range, List.getElem_map, List.getElem_range]
  constructor
  · rintro ⟨hlen, h⟩
    have hf : ∀ i, ∃ f, i < g.height → fit (linspaceList (c - r) (c + r) g.width) (g.row i) = .ok f ∧
        slopes[i]? = some (diff ((linspaceList (c - r) (c + r) g.width).map f)) := by
      intro i
      by_cases hi : i < g.height
      · obtain ⟨b, h1, h2⟩ := h i hi
        cases hfit : fit (linspaceList (c - r) (c + r) g.width) (g.row i) with
        | error e => rw [hfit] at h1; cases h1
        | ok f =>
          rw [hfit] at h1
          simp only [Except.ok.injEq] at h1
          exact ⟨f, fun _ => ⟨rfl, by rw [h2, h1]⟩⟩
      · exact ⟨id, fun h => absurd h hi⟩
    choose curves hc using hf
    refine ⟨curves, fun i hi => (hc i hi).1, List.ext_getElem? fun i => ?_⟩
    by_cases hi : i < g.height
    · rw [(hc i hi).2, List.getElem?_map, List.getElem?_range hi]; rfl
    · rw [List.getElem?_eq_none (by omega), List.getElem?_eq_none (by simpa using hi)]
  · rintro ⟨curves, hc, rfl⟩
    refine ⟨by simp, fun i hi => ⟨_, ?_, by rw [List.getElem?_map, List.getElem?_range hi]; rfl⟩⟩
    have : fit (linspaceList (c - r) (c + r) g.width) (g.row i) = .ok (curves i) := hc i hi
    rw [this]

/-- What `process_raw_data` needs, and returns. -/
theorem process_ok_iff {fit : List ℝ → List ℝ → Except PyErr (ℝ → ℝ)} {c1 c2 : ℝ} {g : Grid} {ev : SD2}
    {out : List (String × ℝ) × List (String × ℝ)} :
    ev.process fit (linspaceList (c1 - ev.range) (c1 + ev.range) g.height) (linspaceList (c2 - ev.range) (c2 + ev.range) g.width) g = .ok out ↔
      g.height ≠ 1 ∧ g.width ≠ 1 ∧ g.width ≠ 0 ∧ ∃ curves a b, Fitted fit c2 ev.range g curves ∧
        steepest2D ev.risingFlank (linspaceList (c1 - ev.range) (c1 + ev.range) g.height) (linspaceList (c2 - ev.range) (c2 + ev.range) g.width)
          ((List.range g.height).map fun i => diff ((linspaceList (c2 - ev.range) (c2 + ev.range) g.width).map (curves i))) = .ok (a, b) ∧
        out = ([("position_" ++ ev.gate1, a), ("position_" ++ ev.gate2, b)],
          [("position_" ++ ev.gate1, 1 / 10000), ("position_" ++ ev.gate2, 1 / 10000)]) := by
  unfold SD2.process
  by_cases h1 : g.height = 1 ∨ g.width = 1
  · rw [if_pos h1]
    simp only [reduceCtorEq, false_iff]
    rintro ⟨h2, h3, _⟩
    exact h1.elim h2 h3
  rw [if_neg h1]
  push Not at h1
  by_cases h0 : g.width = 0
  · rw [if_pos h0]
    simp [h0]
  rw [if_neg h0]
  cases hs : slopesOfLines fit (linspaceList (c2 - ev.range) (c2 + ev.range) g.width) ((List.range g.height).map g.row) with
  | error e =>
    simp only [reduceCtorEq, false_iff]
    rintro ⟨_, _, _, curves, a, b, hc, _⟩
    rw [slopes_ok_iff.2 ⟨curves, hc, rfl⟩] at hs
    cases hs
  | ok slopes =>
    dsimp only
    constructor
    · intro h
      obtain ⟨curves, hc, rfl⟩ := slopes_ok_iff.1 hs
      split at h
      · cases h
      · rename_i a b hab
        exact ⟨h1.1, h1.2, h0, curves, a, b, hc, hab, by cases h; rfl⟩
    · rintro ⟨_, _, _, curves, a, b, hc, hab, rfl⟩
      have := slopes_ok_iff.2 ⟨curves, hc, rfl⟩
      rw [hs, Except.ok.injEq] at this
      rw [this, hab]

theorem rows_of_slopes (x1 : List ℝ) (curves : Nat → ℝ → ℝ) (n : Nat) :
    ∀ r ∈ (List.range n).map (fun i => diff (x1.map (curves i))), r.length = x1.length - 1 := by
  intro r hr
  obtain ⟨i, _, rfl⟩ := List.mem_map.1 hr
  rw [length_diff, List.length_map]

theorem slope_entry {c r : ℝ} {curves : Nat → ℝ → ℝ} {n m i j : Nat} (hi : i < n) (hj : j < m - 1) :
    (((List.range n).map fun i => diff ((linspaceList (c - r) (c + r) m).map (curves i))).getD i []).getD j 0 =
      increase (curves i) c r m j := by
  have hrow : ((List.range n).map fun i => diff ((linspaceList (c - r) (c + r) m).map (curves i))).getD i [] =
      diff ((linspaceList (c - r) (c + r) m).map (curves i)) := by
    rw [List.getD_eq_getElem _ _ (by simpa using hi), List.getElem_map, List.getElem_range]
  rw [hrow, getD_diff (by rw [List.length_map, linspace_length]; exact hj)]
  have hget : ∀ k < m, ((linspaceList (c - r) (c + r) m).map (curves i)).getD k 0 = curves i (scanPoint c r m k) := by
    intro k hk
    rw [List.getD_eq_getElem _ _ (by rw [List.length_map, linspace_length]; exact hk), List.getElem_map, ← linspace_getD hk,
      List.getD_eq_getElem _ _ (by rw [linspace_length]; exact hk)]
  rw [hget _ (by omega), hget _ (by omega), increase, scanPoint, scanPoint]
  push_cast
  rfl

theorem scanPoint_near {c r : ℝ} {n i : Nat} (h : i < n) (hn : 2 ≤ n) : |scanPoint c r n i - c| ≤ |r| := by
  have hn' : (0 : ℝ) < n - 1 := by
    have : (2 : ℝ) ≤ n := by exact_mod_cast hn
    linarith
  have hi : (i : ℝ) ≤ n - 1 := by
    have : (i : ℝ) + 1 ≤ n := by exact_mod_cast h
    linarith
  have e : scanPoint c r n i - c = r * (2 * (i / (n - 1)) - 1) := by unfold scanPoint; field_simp; ring
  rw [e, abs_mul]
  have h1 : (i : ℝ) / (n - 1) ≤ 1 := (div_le_one hn').2 hi
  have h0 : (0 : ℝ) ≤ i / (n - 1) := by positivity
  have : |2 * ((i : ℝ) / (n - 1)) - 1| ≤ 1 := by rw [abs_le]; constructor <;> linarith
  exact mul_le_of_le_one_right (abs_nonneg r) this

theorem evaluate_eq {fit : List ℝ → List ℝ → Except PyErr (ℝ → ℝ)} {v1 v2 : List (String × ℝ)}
    {measure : SD2 → Except PyErr Grid} {ev : SD2} {c1 c2 : ℝ} {g : Grid} (h1 : v1.lookup ev.gate1 = some c1)
    (h2 : v2.lookup ev.gate2 = some c2) (hm : measure { ev with center := some (c1, c2) } = .ok g) :
    let x0 := linspaceList (c1 - ev.range) (c1 + ev.range) g.height
    let x1 := linspaceList (c2 - ev.range) (c2 + ev.range) g.width
    let ev' : SD2 := { ev with center := some (c1, c2), rawY := some g, rawX := some (x0, x1) }
    (∀ e, ev'.process fit x0 x1 g = .error e → ev.evaluate fit (.ok v1) (.ok v2) measure = (ev', .error e)) ∧
    ∀ a b, ev'.process fit x0 x1 g = .ok (a, b) →
      ev.evaluate fit (.ok v1) (.ok v2) measure = ({ ev' with newVoltages := a }, .ok (a, b)) := by
  intro x0 x1 ev'
  unfold SD2.evaluate
  simp only [h1, h2, hm]
  constructor
  · intro e h
    rw [h]
  · intro a b h
    rw [h]

/-! ## C177 -/

/-- **C177**: an evaluation returns exactly if both gates have voltages, the measurement succeeds, the scan has at least
two lines with at least 25 points, and each line can be fitted. -/
theorem sensing_dot_scan_returns (fit : List ℝ → List ℝ → Except PyErr (ℝ → ℝ))
    (read1 read2 : Except PyErr (List (String × ℝ))) (measure : SD2 → Except PyErr Grid) (ev : SD2) :
    (∃ out, (ev.evaluate fit read1 read2 measure).2 = .ok out) ↔
      ∃ v1 v2 c1 c2 g curves, read1 = .ok v1 ∧ read2 = .ok v2 ∧ v1.lookup ev.gate1 = some c1 ∧ v2.lookup ev.gate2 = some c2 ∧
        measure { ev with center := some (c1, c2) } = .ok g ∧ 2 ≤ g.height ∧ 25 ≤ g.width ∧ Fitted fit c2 ev.range g curves := by
  constructor
  · rintro ⟨out, h⟩
    cases hr1 : read1 with
    | error e => rw [hr1] at h; simp [SD2.evaluate] at h
    | ok v1 =>
    cases hl1 : v1.lookup ev.gate1 with
    | none => rw [hr1] at h; simp [SD2.evaluate, hl1] at h
    | some c1 =>
    cases hr2 : read2 with
    | error e => rw [hr1, hr2] at h; simp [SD2.evaluate, hl1] at h
    | ok v2 =>
    cases hl2 : v2.lookup ev.gate2 with
    | none => rw [hr1, hr2] at h; simp [SD2.evaluate, hl1, hl2] at h
    | some c2 =>
    cases hm : measure { ev with center := some (c1, c2) } with
    | error e => rw [hr1, hr2] at h; simp [SD2.evaluate, hl1, hl2, hm] at h
    | ok g =>
    rw [hr1, hr2] at h
    have he := evaluate_eq (fit := fit) hl1 hl2 hm
    dsimp only at he
    cases hp : SD2.process fit (linspaceList (c1 - ev.range) (c1 + ev.range) g.height) (linspaceList (c2 - ev.range) (c2 + ev.range) g.width) g
        { ev with center := some (c1, c2), rawY := some g, rawX := some (linspaceList (c1 - ev.range) (c1 + ev.range) g.height, linspaceList (c2 - ev.range) (c2 + ev.range) g.width) } with
    | error e => rw [he.1 e hp] at h; cases h
    | ok ab =>
      obtain ⟨h1, h2, h3, curves, a, b, hc, hs, _⟩ := process_ok_iff.1 hp
      have hsp := (sensing_dot_2d_partial ev.risingFlank (linspaceList (c1 - ev.range) (c1 + ev.range) g.height)
        (linspaceList (c2 - ev.range) (c2 + ev.range) g.width)
        ((List.range g.height).map fun i => diff ((linspaceList (c2 - ev.range) (c2 + ev.range) g.width).map (curves i)))
        (by simp [linspace_length]) (rows_of_slopes _ _ _)).1.1 ⟨_, hs⟩
      rw [linspace_length] at hsp
      have h0 : g.height ≠ 0 := fun h0 => hsp.2 (by rw [h0]; simp [linspaceList])
      exact ⟨v1, v2, c1, c2, g, curves, rfl, rfl, hl1, hl2, hm, by omega, hsp.1, hc⟩
  · rintro ⟨v1, v2, c1, c2, g, curves, rfl, rfl, hl1, hl2, hm, hh, hw, hc⟩
    have he := evaluate_eq (fit := fit) hl1 hl2 hm
    dsimp only at he
    obtain ⟨⟨a, b⟩, hab⟩ := (sensing_dot_2d_partial ev.risingFlank (linspaceList (c1 - ev.range) (c1 + ev.range) g.height)
        (linspaceList (c2 - ev.range) (c2 + ev.range) g.width)
        ((List.range g.height).map fun i => diff ((linspaceList (c2 - ev.range) (c2 + ev.range) g.width).map (curves i)))
        (by simp [linspace_length]) (rows_of_slopes _ _ _)).1.2 ⟨by rw [linspace_length]; exact hw, by
          intro h
          have := linspace_length (c1 - ev.range) (c1 + ev.range) g.height
          rw [h] at this
          simp at this
          omega⟩
    exact ⟨_, by rw [he.2 _ _ (process_ok_iff.2 ⟨by omega, by omega, by omega, curves, a, b, hc, hab, rfl⟩)]⟩

/-- **C177**: the position that an evaluation returns is a point of a scan around the voltages which the gates had when the
evaluation read them, and no further from them than the range.  Along the second gate it is inside the borders, a 25th of
the line, and no other such point has a smaller slope if `rising_flank` is true, or a larger one if it is false.  The
variances are 1e-4, and the evaluator keeps the scan, its axes and the position. -/
theorem sensing_dot_scan_position (fit : List ℝ → List ℝ → Except PyErr (ℝ → ℝ)) (v1 v2 : List (String × ℝ))
    (measure : SD2 → Except PyErr Grid) (ev after : SD2) (values errors : List (String × ℝ))
    (h : ev.evaluate fit (.ok v1) (.ok v2) measure = (after, .ok (values, errors))) :
    ∃ c1 c2 g curves i j, v1.lookup ev.gate1 = some c1 ∧ v2.lookup ev.gate2 = some c2 ∧
      measure { ev with center := some (c1, c2) } = .ok g ∧ Fitted fit c2 ev.range g curves ∧
      i < g.height ∧ InnerOfLine g.width j ∧
      values = [("position_" ++ ev.gate1, scanPoint c1 ev.range g.height i), ("position_" ++ ev.gate2, scanPoint c2 ev.range g.width j)] ∧
      errors = [("position_" ++ ev.gate1, 1 / 10000), ("position_" ++ ev.gate2, 1 / 10000)] ∧
      |scanPoint c1 ev.range g.height i - c1| ≤ |ev.range| ∧ |scanPoint c2 ev.range g.width j - c2| ≤ |ev.range| ∧
      (∀ i' < g.height, ∀ j', InnerOfLine g.width j' → Better (!ev.risingFlank) (increase (curves i) c2 ev.range g.width j)
        (increase (curves i') c2 ev.range g.width j')) ∧
      after = { ev with center := some (c1, c2), rawY := some g, newVoltages := values,
                        rawX := some (linspaceList (c1 - ev.range) (c1 + ev.range) g.height,
                          linspaceList (c2 - ev.range) (c2 + ev.range) g.width) } := by
  obtain ⟨w1, w2, c1, c2, g, curves0, e1, e2, hl1, hl2, hm, hh, hw, hc0⟩ :=
    (sensing_dot_scan_returns fit (.ok v1) (.ok v2) measure ev).1 ⟨_, by rw [h]⟩
  cases e1
  cases e2
  have he := evaluate_eq (fit := fit) hl1 hl2 hm
  dsimp only at he
  cases hp : SD2.process fit (linspaceList (c1 - ev.range) (c1 + ev.range) g.height) (linspaceList (c2 - ev.range) (c2 + ev.range) g.width) g
      { ev with center := some (c1, c2), rawY := some g, rawX := some (linspaceList (c1 - ev.range) (c1 + ev.range) g.height, linspaceList (c2 - ev.range) (c2 + ev.range) g.width) } with
  | error e => rw [he.1 e hp] at h; cases h
  | ok ab =>
    obtain ⟨_, _, _, curves, a, b, hc, hs, hab⟩ := process_ok_iff.1 hp
    subst hab
    rw [he.2 _ _ hp] at h
    simp only [Prod.mk.injEq, Except.ok.injEq] at h
    obtain ⟨hafter, hvalues, herrors⟩ := h
    obtain ⟨i, j, ⟨hi, hj1, hj2⟩, ha, hb, hbest⟩ := (sensing_dot_2d_partial ev.risingFlank (linspaceList (c1 - ev.range) (c1 + ev.range) g.height)
        (linspaceList (c2 - ev.range) (c2 + ev.range) g.width)
        ((List.range g.height).map fun i => diff ((linspaceList (c2 - ev.range) (c2 + ev.range) g.width).map (curves i)))
        (by simp [linspace_length]) (rows_of_slopes _ _ _)).2 a b hs
    rw [linspace_length] at hi hj1 hj2
    rw [linspace_getD hi] at ha
    rw [linspace_getD (by omega)] at hb
    subst ha hb
    refine ⟨c1, c2, g, curves, i, j, hl1, hl2, hm, hc, hi, ⟨hj1, hj2⟩, hvalues.symm, herrors.symm, scanPoint_near hi hh,
      scanPoint_near (by omega) (by omega), fun i' hi' j' hj' => ?_, ?_⟩
    · have := hbest i' j' ⟨by rw [linspace_length]; exact hi', by rw [linspace_length]; exact hj'.1, by rw [linspace_length]; exact hj'.2⟩
      have hj'2 := hj'.2
      rw [slope_entry hi (by omega), slope_entry hi' (by omega)] at this
      unfold Better
      cases hr : ev.risingFlank with
      | true => simpa using this.1 hr
      | false => simpa using this.2 hr
    · rw [← hafter, ← hvalues]

/-- **C177**: an evaluation that fails leaves the last position, and the options except for the center, as they were. -/
theorem sensing_dot_scan_failure (fit : List ℝ → List ℝ → Except PyErr (ℝ → ℝ))
    (read1 read2 : Except PyErr (List (String × ℝ))) (measure : SD2 → Except PyErr Grid) (ev after : SD2) (e : PyErr)
    (h : ev.evaluate fit read1 read2 measure = (after, .error e)) :
    after.newVoltages = ev.newVoltages ∧ after.gate1 = ev.gate1 ∧ after.gate2 = ev.gate2 ∧ after.range = ev.range ∧
      after.risingFlank = ev.risingFlank ∧
      (after.center = ev.center → after = ev ∨ ∃ v1 v2 c1 c2, read1 = .ok v1 ∧ read2 = .ok v2 ∧
        v1.lookup ev.gate1 = some c1 ∧ v2.lookup ev.gate2 = some c2 ∧ ev.center = some (c1, c2)) := by
  unfold SD2.evaluate at h
  split at h
  · cases h; simp
  rename_i v1
  split at h
  · cases h; simp
  rename_i c1 hl1
  split at h
  · cases h; simp
  rename_i v2
  split at h
  · cases h; simp
  rename_i c2 hl2
  dsimp only at h
  split at h
  · cases h
    exact ⟨rfl, rfl, rfl, rfl, rfl, fun hc => .inr ⟨v1, v2, c1, c2, rfl, rfl, hl1, hl2, hc.symm⟩⟩
  split at h
  · cases h
    exact ⟨rfl, rfl, rfl, rfl, rfl, fun hc => .inr ⟨v1, v2, c1, c2, rfl, rfl, hl1, hl2, hc.symm⟩⟩
  · cases h

/-- **C177**: if one of the two gates has no voltage, `KeyError` is raised, nothing is measured and the evaluator is as it was. -/
theorem sensing_dot_scan_unknown_gate (fit : List ℝ → List ℝ → Except PyErr (ℝ → ℝ)) (v1 v2 : List (String × ℝ))
    (measure : SD2 → Except PyErr Grid) (ev : SD2) (h : v1.lookup ev.gate1 = none ∨ v2.lookup ev.gate2 = none) :
    ev.evaluate fit (.ok v1) (.ok v2) measure = (ev, .error .keyError) := by
  unfold SD2.evaluate
  cases h1 : v1.lookup ev.gate1 with
  | none => simp only [h1]
  | some c1 =>
    rw [h1] at h
    simp only [h1, h.resolve_left (by simp)]

/-- A scan with two lines around (1, 2) and a fit that succeeds. -/
example : ∃ out, (SD2.evaluate (fun _ _ => .ok fun x => x) (.ok [("SDB1", 1), ("SDB2", 2)]) (.ok [("SDB1", 1), ("SDB2", 2)])
    (fun _ => .ok ⟨2, 104, fun _ j => j⟩) ⟨"SDB1", "SDB2", 1 / 100, true, none, none, none, []⟩).2 = .ok out :=
  (sensing_dot_scan_returns _ _ _ _ _).2 ⟨_, _, 1, 2, ⟨2, 104, fun _ j => j⟩, fun _ x => x, rfl, rfl, by simp [List.lookup], by simp [List.lookup], rfl, by simp, by simp,
    fun _ _ => rfl⟩

/-- A scan with one line is not evaluated. -/
example : ¬ ∃ out, (SD2.evaluate (fun _ _ => .ok fun x => x) (.ok [("SDB1", 1), ("SDB2", 2)]) (.ok [("SDB1", 1), ("SDB2", 2)])
    (fun _ => .ok ⟨1, 104, fun _ j => j⟩) ⟨"SDB1", "SDB2", 1 / 100, true, none, none, none, []⟩).2 = .ok out := by
  rw [sensing_dot_scan_returns]
  rintro ⟨_, _, _, _, g, _, _, _, _, _, hg, h2, _⟩
  cases hg
  simp at h2

end Qtune.Evaluator
