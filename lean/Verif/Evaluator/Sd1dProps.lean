import Verif.Evaluator.Sd1dModel
import Verif.Evaluator.QqdProps

/-!
# Properties of SensingDot1D (C130)

* `sensing_dot_1d_refuted`: no evaluation returns.
* `sensing_dot_1d_partial`: what the evaluator knows when the evaluation fails.
* `sensing_dot_1d_signal_refuted`: the signal that is stored is not the one at the position that is stored.
-/

namespace Qtune.Evaluator

open Classical
open Fit (linspaceList)

/-- C130 is false: whatever the gate voltages, the data, the fit, the options and the version of numpy,
`SensingDot1D.evaluate` raises an exception. -/
theorem sensing_dot_1d_refuted (P : Polynomials) (voltages : Except PyErr (List (String × ℝ)))
    (measure : SD1 → Except PyErr (List ℝ)) (ev : SD1) : ∃ e, (ev.evaluate P voltages measure).2 = .error e := by
  have hp : ∀ xs ys (ev : SD1), ∃ ev' e, ev.process P xs ys = (ev', .error e) := by
    intro xs ys ev
    unfold SD1.process
    dsimp only
    split
    · exact ⟨_, _, rfl⟩
    · split
      · exact ⟨_, _, rfl⟩
      · split
        · exact ⟨_, _, rfl⟩
        · split
          · exact ⟨_, _, rfl⟩
          · split <;> exact ⟨_, _, rfl⟩
  unfold SD1.evaluate
  dsimp only
  split
  · exact ⟨_, rfl⟩
  · split
    · exact ⟨_, rfl⟩
    · split
      · exact ⟨_, rfl⟩
      · rename_i c _ _ data _
        obtain ⟨ev', e, h⟩ := hp (linspaceList (c - ev.range) (c + ev.range) ev.nPoints) data
          { ev with gate := ev.sweepingGate, center := some c, rawY := some data,
                    rawX := some (linspaceList (c - ev.range) (c + ev.range) ev.nPoints) }
        rw [h]
        exact ⟨_, rfl⟩

/-- A point of a scan with `n` points that is not cut off at the borders. -/
def InnerPoint (n j : Nat) : Prop := n / 16 ≤ j ∧ j + n / 16 < n - 1

/-- The increase of `f` from the point `j` of the scan to the next one. -/
noncomputable def increase (f : ℝ → ℝ) (center range : ℝ) (n j : Nat) : ℝ :=
  f (center - range + (j + 1) * (2 * range / (n - 1))) - f (center - range + j * (2 * range / (n - 1)))

theorem length_diff (l : List ℝ) : (diff l).length = l.length - 1 := by simp [diff]

theorem getD_diff {l : List ℝ} {j : Nat} (h : j < l.length - 1) : (diff l).getD j 0 = l.getD (j + 1) 0 - l.getD j 0 := by
  rw [List.getD_eq_getElem _ _ (by rw [length_diff]; exact h)]
  simp [diff]

/-- The better of two slopes. -/
def Better (rising : Bool) (a b : ℝ) : Prop := if rising then b ≤ a else a ≤ b

theorem best_spec {rising : Bool} {l : List ℝ} {k : Nat}
    (h : (if rising then Signal.argmax l else Signal.argmin l) = some k) :
    k < l.length ∧ ∀ j < l.length, Better rising (l.getD k 0) (l.getD j 0) := by
  cases rising with
  | true =>
    simp only [if_true] at h
    obtain ⟨h1, h2, _⟩ := Signal.argmax_spec h
    exact ⟨h1, fun j hj => by simpa [Better] using h2 j hj⟩
  | false =>
    simp only [Bool.false_eq_true, if_false] at h
    unfold Signal.argmin at h
    obtain ⟨h1, h2, _⟩ := Signal.argmax_spec h
    rw [List.length_map] at h1 h2
    refine ⟨h1, fun j hj => ?_⟩
    have := h2 j hj
    simp only [List.getD_eq_getElem?_getD, List.getElem?_map, List.getElem?_eq_getElem hj,
      List.getElem?_eq_getElem h1, Option.map_some, Option.getD_some] at this ⊢
    simp only [Better, Bool.false_eq_true, if_false]
    linarith

theorem best_some {rising : Bool} {l : List ℝ} (h : l ≠ []) :
    ∃ k, (if rising then Signal.argmax l else Signal.argmin l) = some k := by
  cases hk : (if rising then Signal.argmax l else Signal.argmin l) with
  | some k => exact ⟨k, rfl⟩
  | none =>
    exfalso
    cases rising
    · simp only [Bool.false_eq_true, if_false] at hk
      unfold Signal.argmin at hk
      rw [Signal.argmax_none, List.map_eq_nil_iff] at hk
      exact h hk
    · simp only [if_true, Signal.argmax_none] at hk
      exact h hk

theorem evaluate_of_process {P : Polynomials} {v : List (String × ℝ)} {measure : SD1 → Except PyErr (List ℝ)}
    {ev : SD1} {c : ℝ} {data : List ℝ} {x : SD1} {e : PyErr} (hc : v.lookup ev.sweepingGate = some c)
    (hm : measure { ev with gate := ev.sweepingGate, center := some c } = .ok data)
    (hp : SD1.process P (linspaceList (c - ev.range) (c + ev.range) ev.nPoints) data
      { ev with gate := ev.sweepingGate, center := some c, rawY := some data,
                rawX := some (linspaceList (c - ev.range) (c + ev.range) ev.nPoints) } = (x, .error e)) :
    ev.evaluate P (.ok v) measure = (x, .error e) := by
  unfold SD1.evaluate
  simp only [hc, hm, hp]

/-- C130 (partial): if `poly1d` existed and the fit succeeded, the evaluation would fail with a `ValueError` if the
scan has fewer than 16 points and with an `IndexError` otherwise.  The options of the measurement are those of the
sweeping gate at its present voltage, the raw data are stored, and for 16 and more points the evaluator then knows the
position in the scan, inside the cut-off borders, at which the fitted curve is steepest in the wanted direction.  The
signal that it stores is the best slope of the whole scan, borders included, and the current signal is unchanged. -/
theorem sensing_dot_1d_partial (P : Polynomials) (v : List (String × ℝ)) (measure : SD1 → Except PyErr (List ℝ))
    (ev : SD1) (c : ℝ) (data coef : List ℝ) (poly1d : List ℝ → ℝ → ℝ)
    (hc : v.lookup ev.sweepingGate = some c)
    (hm : measure { ev with gate := ev.sweepingGate, center := some c } = .ok data)
    (hfit : P.polyfit (linspaceList (c - ev.range) (c + ev.range) ev.nPoints) data = .ok coef)
    (hpoly : P.poly1d = .ok poly1d) :
    let after := (ev.evaluate P (.ok v) measure).1
    let f := poly1d coef.reverse
    (ev.evaluate P (.ok v) measure).2 = .error (if ev.nPoints < 16 then .valueError else .indexError) ∧
    after.gate = ev.sweepingGate ∧ after.center = some c ∧ after.rawY = some data ∧
    after.rawX = some (linspaceList (c - ev.range) (c + ev.range) ev.nPoints) ∧
    after.currentSignal = ev.currentSignal ∧
    (16 ≤ ev.nPoints → ∃ j m : Nat, InnerPoint ev.nPoints j ∧ m < ev.nPoints - 1 ∧
      after.optimalPosition = some (c - ev.range + j * (2 * ev.range / (ev.nPoints - 1))) ∧
      after.optimalSignal = some (increase f c ev.range ev.nPoints m) ∧
      (∀ j', InnerPoint ev.nPoints j' →
        Better ev.risingFlank (increase f c ev.range ev.nPoints j) (increase f c ev.range ev.nPoints j')) ∧
      ∀ m' < ev.nPoints - 1,
        Better ev.risingFlank (increase f c ev.range ev.nPoints m) (increase f c ev.range ev.nPoints m')) := by
  intro after f
  set n := ev.nPoints with hn
  set xs := linspaceList (c - ev.range) (c + ev.range) n with hxs
  have hlen : xs.length = n := by rw [hxs]; simp [linspaceList]
  have hx : ∀ j < n, xs[j]? = some (c - ev.range + j * (2 * ev.range / (n - 1))) := by
    intro j hj
    rw [hxs, linspaceList, List.getElem?_map, List.getElem?_range hj]
    simp only [Option.map_some, Option.some.injEq]
    ring
  set slopes := diff (xs.map f) with hsl
  have hsn : slopes.length = n - 1 := by rw [hsl, length_diff, List.length_map, hlen]
  have hslope : ∀ j < n - 1, slopes.getD j 0 = increase f c ev.range n j := by
    intro j hj
    rw [hsl, getD_diff (by rw [List.length_map, hlen]; exact hj)]
    simp only [List.getD_eq_getElem?_getD, List.getElem?_map]
    rw [hx j (by omega), hx (j + 1) (by omega)]
    simp [increase]
  set ev1 : SD1 := { ev with gate := ev.sweepingGate, center := some c, rawY := some data, rawX := some xs } with hev1
  have hcut : (cut (n / 16) slopes).length = if n / 16 = 0 then 0 else n - 1 - 2 * (n / 16) := cut_length hsn
  have key : ev.evaluate P (.ok v) measure = ((ev1.process P xs data).1, .error (if n < 16 then .valueError else .indexError)) ∧
      (n < 16 → (ev1.process P xs data).1 = ev1) ∧
      (16 ≤ n → ∃ k m, (if ev.risingFlank then Signal.argmax (cut (n / 16) slopes) else
          Signal.argmin (cut (n / 16) slopes)) = some k ∧
        (if ev.risingFlank then Signal.argmax slopes else Signal.argmin slopes) = some m ∧
        (ev1.process P xs data).1 = { ev1 with
          optimalSignal := some (slopes.getD m 0),
          optimalPosition := some (c - ev.range + ((k + n / 16 : Nat) : ℝ) * (2 * ev.range / (n - 1))) }) := by
    have hE : ∀ (x : SD1) (e : PyErr), ev1.process P xs data = (x, .error e) →
        ev.evaluate P (.ok v) measure = (x, .error e) := by
      intro x e hp
      exact evaluate_of_process hc hm hp
    by_cases h16 : n < 16
    · have h0 : n / 16 = 0 := by omega
      have hnil : cut (n / 16) slopes = [] := by rw [cut, if_pos h0]
      have hp : ev1.process P xs data = (ev1, .error .valueError) := by
        unfold SD1.process
        simp only [hfit, hpoly, hlen]
        rw [show (diff (xs.map (poly1d coef.reverse))) = slopes from rfl, hnil]
        cases ev1.risingFlank <;> simp [Signal.argmin, Signal.argmax]
      rw [if_pos h16, hp]
      exact ⟨hE _ _ hp, fun _ => rfl, fun h => absurd h16 (by omega)⟩
    · have h0 : n / 16 ≠ 0 := by omega
      rw [if_neg h0] at hcut
      obtain ⟨k, hk⟩ := best_some (rising := ev.risingFlank) (l := cut (n / 16) slopes)
        (by rw [← List.length_pos_iff, hcut]; omega)
      obtain ⟨m, hm'⟩ := best_some (rising := ev.risingFlank) (l := slopes)
        (by rw [← List.length_pos_iff, hsn]; omega)
      have hkl := (best_spec hk).1
      rw [hcut] at hkl
      have hp : ev1.process P xs data = ({ ev1 with
          optimalSignal := some (slopes.getD m 0),
          optimalPosition := some (c - ev.range + ((k + n / 16 : Nat) : ℝ) * (2 * ev.range / (n - 1))) },
          .error .indexError) := by
        unfold SD1.process
        simp only [hfit, hpoly, hlen]
        rw [show (diff (xs.map (poly1d coef.reverse))) = slopes from rfl]
        rw [show ev1.risingFlank = ev.risingFlank from rfl, hk]
        dsimp only
        rw [hm']
        dsimp only
        rw [hx (k + n / 16) (by omega)]
        rfl
      rw [if_neg h16, hp]
      exact ⟨hE _ _ hp, fun h => absurd h h16, fun _ => ⟨k, m, hk, hm', rfl⟩⟩
  obtain ⟨k1, k2, k3⟩ := key
  have hafter : after = (ev1.process P xs data).1 := by
    show (ev.evaluate P (.ok v) measure).1 = _
    rw [k1]
  rw [k1, hafter]
  by_cases h16 : n < 16
  · rw [k2 h16]
    exact ⟨rfl, rfl, rfl, rfl, rfl, rfl, fun h => absurd h16 (by omega)⟩
  · obtain ⟨k, m, hk, hm', hp⟩ := k3 (by omega)
    rw [hp]
    refine ⟨rfl, rfl, rfl, rfl, rfl, rfl, fun _ => ?_⟩
    have h0 : n / 16 ≠ 0 := by omega
    rw [if_neg h0] at hcut
    obtain ⟨hkl, hkb⟩ := best_spec hk
    obtain ⟨hml, hmb⟩ := best_spec hm'
    rw [hcut] at hkl hkb
    rw [hsn] at hml hmb
    have hget : ∀ j, j < n - 1 - 2 * (n / 16) →
        (cut (n / 16) slopes).getD j 0 = increase f c ev.range n (j + n / 16) := by
      intro j hj
      rw [cut_getD h0 (by rw [hsn]; exact hj), hslope _ (by omega)]
    refine ⟨k + n / 16, m, ⟨by omega, by omega⟩, hml, rfl, ?_, ?_, ?_⟩
    · show some (slopes.getD m 0) = _
      rw [hslope m hml]
    · rintro j' ⟨hj1, hj2⟩
      have := hkb (j' - n / 16) (by omega)
      rw [hget k hkl, hget _ (by omega), Nat.sub_add_cancel hj1] at this
      exact this
    · intro m' hm2
      have := hmb m' hm2
      rw [hslope m hml, hslope m' hm2] at this
      exact this

/-- Numpy with a `poly1d` in which the fit is the identity: the fitted curve is `x ^ 2`. -/
noncomputable def squares : Polynomials := ⟨fun _ _ => .ok [], .ok fun _ x => x ^ 2⟩

/-- A scan of 17 points from -8 to 8 on a rising flank. -/
noncomputable def scan17 : SD1 := ⟨"SDB2", true, "SDB2", none, 8, 17, none, none, none, none, none⟩

/-- The hypotheses are met. -/
example : ∃ j m : Nat, InnerPoint 17 j ∧ m < 16 ∧
    (scan17.evaluate squares (.ok [("SDB2", 0)]) fun _ => .ok []).1.optimalPosition =
      some ((0 : ℝ) - 8 + (j : ℝ) * (2 * 8 / (((17 : Nat) : ℝ) - 1))) := by
  obtain ⟨j, m, h1, h2, h3, _⟩ := (sensing_dot_1d_partial squares [("SDB2", 0)] (fun _ => .ok []) scan17 0 [] []
    (fun _ x => x ^ 2) rfl rfl rfl rfl).2.2.2.2.2.2 (by simp [scan17])
  exact ⟨j, m, h1, h2, h3⟩

/-- The stored signal need not be the slope at the stored position, even if the fit is perfect: on the parabola the
signal is that at the border of the scan, the position is inside. -/
theorem sensing_dot_1d_signal_refuted : ¬ ∀ (P : Polynomials) (v : List (String × ℝ))
    (measure : SD1 → Except PyErr (List ℝ)) (ev : SD1) (c : ℝ) (data coef : List ℝ) (poly1d : List ℝ → ℝ → ℝ),
    v.lookup ev.sweepingGate = some c →
    measure { ev with gate := ev.sweepingGate, center := some c } = .ok data →
    P.polyfit (linspaceList (c - ev.range) (c + ev.range) ev.nPoints) data = .ok coef →
    P.poly1d = .ok poly1d → 16 ≤ ev.nPoints →
    ∃ j : Nat, j < ev.nPoints - 1 ∧
      (ev.evaluate P (.ok v) measure).1.optimalPosition = some (c - ev.range + j * (2 * ev.range / (ev.nPoints - 1))) ∧
      (ev.evaluate P (.ok v) measure).1.optimalSignal =
        some (increase (poly1d coef.reverse) c ev.range ev.nPoints j) := by
  intro h
  obtain ⟨j, hj, hp, hs⟩ := h squares [("SDB2", 0)] (fun _ => .ok []) scan17 0 [] [] (fun _ x => x ^ 2) rfl rfl rfl rfl
    (by simp [scan17])
  obtain ⟨j', m, ⟨h1, h2⟩, h3, h4, h5, _, h7⟩ := (sensing_dot_1d_partial squares [("SDB2", 0)] (fun _ => .ok []) scan17
    0 [] [] (fun _ x => x ^ 2) rfl rfl rfl rfl).2.2.2.2.2.2 (by simp [scan17])
  rw [hp, Option.some.injEq] at h4
  rw [hs, Option.some.injEq] at h5
  have hb := h7 15 (by simp [scan17])
  rw [← h5] at hb
  have e : scan17.range = 8 := rfl
  have e' : scan17.nPoints = 17 := rfl
  simp only [e, e', Better, increase, scan17, if_true] at h4 h5 hb h2
  norm_num at h4 h5 hb h2
  subst h4
  have : (j : ℝ) ≤ 14 := by exact_mod_cast (by omega : j ≤ 14)
  nlinarith

end Qtune.Evaluator
