import Verif.Evaluator.QqdModel
import Verif.Evaluator.Props

/-!
# Properties of SensingDot2D and of the range checks of the QQD evaluators (C71, C93, C94)
-/

namespace Qtune.Evaluator

open Classical

/-! ## SensingDot2D -/

theorem cut_length {c n : Nat} {row : List ℝ} (hr : row.length = n - 1) :
    (cut c row).length = if c = 0 then 0 else n - 1 - 2 * c := by
  unfold cut
  split
  · rfl
  · simp only [List.length_drop, List.length_take]; omega

theorem cut_getD {c : Nat} (hc : c ≠ 0) {row : List ℝ} {j : Nat} (hj : j < row.length - 2 * c) :
    (cut c row).getD j 0 = row.getD (j + c) 0 := by
  unfold cut
  rw [if_neg hc]
  simp only [List.getD_eq_getElem?_getD, List.getElem?_drop]
  rw [List.getElem?_take_of_lt (by omega), Nat.add_comm]

theorem flat_length {f : List ℝ → List ℝ} {w : Nat} : ∀ {rows : List (List ℝ)}, (∀ r ∈ rows, (f r).length = w) →
    (rows.flatMap f).length = rows.length * w
  | [], _ => by simp
  | r :: rows, h => by
    rw [List.flatMap_cons, List.length_append, h r (by simp), flat_length fun r' hr' => h r' (by simp [hr'])]
    simp [Nat.add_mul, Nat.add_comm]

theorem flat_getD {f : List ℝ → List ℝ} {w : Nat} : ∀ {rows : List (List ℝ)}, (∀ r ∈ rows, (f r).length = w) →
    ∀ i j, i < rows.length → j < w → (rows.flatMap f).getD (i * w + j) 0 = (f (rows.getD i [])).getD j 0
  | [], _, i, j, hi, _ => by simp at hi
  | r :: rows, h, 0, j, hi, hj => by
    rw [List.flatMap_cons, Nat.zero_mul, Nat.zero_add, List.getD_append _ _ _ _ (by rw [h r (by simp)]; exact hj)]
    rfl
  | r :: rows, h, i + 1, j, hi, hj => by
    have hr := h r (by simp)
    rw [List.flatMap_cons, List.getD_append_right _ _ _ _ (by rw [hr, Nat.add_mul]; omega), hr]
    have : (i + 1) * w + j - w = i * w + j := by rw [Nat.add_mul]; omega
    rw [this, flat_getD (fun r' hr' => h r' (by simp [hr'])) i j (by simpa using hi) hj]
    rfl

/-- A point `(i, j)` of the derivative that is not cut off at the borders. -/
def Inner (x0 x1 : List ℝ) (i j : Nat) : Prop :=
  i < x0.length ∧ x1.length / 25 ≤ j ∧ j + x1.length / 25 < x1.length - 1

/-- C94 (partial): `SensingDot2D` fails exactly if the lines have fewer than 25 points (or there is no line).  Otherwise
the result is a point of the scan, not at the border, at which the slope along the second gate is the smallest of all
such points if `rising_flank` is true, and the largest if it is false.  Missing: with `rising_flank` one expects the
largest slope, see `sensing_dot_2d_refuted`. -/
theorem sensing_dot_2d_partial (rising : Bool) (x0 x1 : List ℝ) (deriv : List (List ℝ))
    (hrows : deriv.length = x0.length) (hcols : ∀ r ∈ deriv, r.length = x1.length - 1) :
    ((∃ p, steepest2D rising x0 x1 deriv = .ok p) ↔ 25 ≤ x1.length ∧ x0 ≠ []) ∧
    ∀ a b, steepest2D rising x0 x1 deriv = .ok (a, b) → ∃ i j, Inner x0 x1 i j ∧ a = x0.getD i 0 ∧ b = x1.getD j 0 ∧
      ∀ i' j', Inner x0 x1 i' j' →
        (rising = true → (deriv.getD i []).getD j 0 ≤ (deriv.getD i' []).getD j' 0) ∧
        (rising = false → (deriv.getD i' []).getD j' 0 ≤ (deriv.getD i []).getD j 0) := by
  set c := x1.length / 25 with hc
  set w := if c = 0 then 0 else x1.length - 1 - 2 * c with hw
  have hrow : ∀ r ∈ deriv, (cut c r).length = w := fun r hr => cut_length (hcols r hr)
  have hlen : (deriv.flatMap (cut c)).length = deriv.length * w := flat_length hrow
  by_cases hok : 25 ≤ x1.length ∧ x0 ≠ []
  · obtain ⟨h25, hx0⟩ := hok
    have hc0 : c ≠ 0 := by rw [hc]; omega
    have hwv : w = x1.length - 1 - 2 * c := by rw [hw, if_neg hc0]
    have hwpos : 0 < w := by rw [hwv, hc]; omega
    have hx0pos : 0 < x0.length := List.length_pos_iff.mpr hx0
    have hflat : 0 < (deriv.flatMap (cut c)).length := by rw [hlen, hrows]; exact Nat.mul_pos hx0pos hwpos
    have hget : ∀ i j, i < x0.length → j < w → (deriv.flatMap (cut c)).getD (i * w + j) 0 =
        (deriv.getD i []).getD (j + c) 0 := by
      intro i j hi hj
      rw [flat_getD hrow i j (by omega) hj, cut_getD hc0]
      have : (deriv.getD i []).length = x1.length - 1 := by
        rw [List.getD_eq_getElem _ _ (by omega)]
        exact hcols _ (List.getElem_mem _)
      omega
    have hsome : ∃ k, (if rising then Signal.argmin (deriv.flatMap (cut c)) else
        Signal.argmax (deriv.flatMap (cut c))) = some k := by
      cases h : (if rising then Signal.argmin (deriv.flatMap (cut c)) else Signal.argmax (deriv.flatMap (cut c))) with
      | some k => exact ⟨k, rfl⟩
      | none =>
        exfalso
        cases rising
        · simp only [Bool.false_eq_true, if_false, Signal.argmax_none] at h
          rw [h] at hflat
          simp at hflat
        · simp only [if_true] at h
          unfold Signal.argmin at h
          rw [Signal.argmax_none, List.map_eq_nil_iff] at h
          rw [h] at hflat
          simp at hflat
    obtain ⟨k, hk⟩ := hsome
    have hext : k < (deriv.flatMap (cut c)).length ∧ ∀ m < (deriv.flatMap (cut c)).length,
        (rising = true → (deriv.flatMap (cut c)).getD k 0 ≤ (deriv.flatMap (cut c)).getD m 0) ∧
        (rising = false → (deriv.flatMap (cut c)).getD m 0 ≤ (deriv.flatMap (cut c)).getD k 0) := by
      cases rising
      · simp only [Bool.false_eq_true, if_false] at hk
        obtain ⟨h1, h2, _⟩ := Signal.argmax_spec hk
        exact ⟨h1, fun m hm => ⟨by simp, fun _ => h2 m hm⟩⟩
      · simp only [if_true] at hk
        unfold Signal.argmin at hk
        obtain ⟨h1, h2, _⟩ := Signal.argmax_spec hk
        rw [List.length_map] at h1 h2
        refine ⟨h1, fun m hm => ⟨fun _ => ?_, by simp⟩⟩
        have := h2 m hm
        simp only [List.getD_eq_getElem?_getD, List.getElem?_map, List.getElem?_eq_getElem hm,
          List.getElem?_eq_getElem h1, Option.map_some, Option.getD_some] at this ⊢
        linarith
    have hki : k / w < x0.length := by
      rw [hlen, hrows] at hext
      exact Nat.div_lt_of_lt_mul (by rw [Nat.mul_comm]; exact hext.1)
    have hkj : k % w < w := Nat.mod_lt _ hwpos
    have hkeq : k = k / w * w + k % w := by rw [Nat.mul_comm]; exact (Nat.div_add_mod k w).symm
    have hv : steepest2D rising x0 x1 deriv = .ok (x0.getD (k / w) 0, x1.getD (k % w + c) 0) := by
      unfold steepest2D
      dsimp only
      rw [← hc, ← hw, hk]
      dsimp only
      have h2 : k % w + c < x1.length := by omega
      rw [List.getElem?_eq_getElem hki, List.getElem?_eq_getElem h2]
      simp [List.getD_eq_getElem?_getD, hki, h2]
    refine ⟨⟨fun _ => ⟨h25, hx0⟩, fun _ => ⟨_, hv⟩⟩, fun a b hab => ?_⟩
    rw [hv] at hab
    cases hab
    refine ⟨k / w, k % w + c, ⟨hki, by omega, by omega⟩, rfl, rfl, ?_⟩
    rintro i' j' ⟨hi', hj1, hj2⟩
    have h1 := hget i' (j' - c) hi' (by omega)
    have h2 := hget (k / w) (k % w) hki hkj
    rw [Nat.sub_add_cancel (by omega)] at h1
    rw [← hkeq] at h2
    rw [← h1, ← h2]
    apply hext.2
    rw [hlen, hrows]
    calc i' * w + (j' - c) < i' * w + w := by omega
      _ = (i' + 1) * w := by rw [Nat.add_mul]; omega
      _ ≤ x0.length * w := Nat.mul_le_mul_right _ hi'
  · have hnil : deriv.flatMap (cut c) = [] := by
      apply List.eq_nil_of_length_eq_zero
      rw [hlen]
      by_cases hx : x0 = []
      · rw [hrows, hx]; simp
      · have h25 : ¬ 25 ≤ x1.length := fun h => hok ⟨h, hx⟩
        have : c = 0 := by rw [hc]; omega
        rw [hw, if_pos this, Nat.mul_zero]
    have hv : steepest2D rising x0 x1 deriv = .error .valueError := by
      unfold steepest2D
      dsimp only
      rw [← hc, hnil]
      cases rising
      · simp [Signal.argmax]
      · simp [Signal.argmin, Signal.argmax]
    rw [hv]
    exact ⟨⟨fun ⟨p, hp⟩ => (by cases hp), fun h => absurd h hok⟩, fun a b h => (by cases h)⟩

/-- One line with 25 points. -/
example : ∃ a b, steepest2D true [1] (List.replicate 25 0) [List.replicate 24 0] = .ok (a, b) := by
  obtain ⟨⟨a, b⟩, h⟩ := (sensing_dot_2d_partial true [1] (List.replicate 25 0) [List.replicate 24 0] rfl
    (by simp)).1.mpr ⟨by simp, by simp⟩
  exact ⟨a, b, h⟩

/-- C94 is false: for a rising flank the result need not be the point with the largest slope, even if the fit is
exact.  The line of the counterexample becomes steeper from point to point; the result is its flattest point. -/
theorem sensing_dot_2d_refuted : ¬ ∀ (x0 x1 : List ℝ) (deriv : List (List ℝ)),
    deriv.length = x0.length → (∀ r ∈ deriv, r.length = x1.length - 1) →
    ∀ a b, steepest2D true x0 x1 deriv = .ok (a, b) → ∃ i j, Inner x0 x1 i j ∧ a = x0.getD i 0 ∧ b = x1.getD j 0 ∧
      ∀ i' j', Inner x0 x1 i' j' → (deriv.getD i' []).getD j' 0 ≤ (deriv.getD i []).getD j 0 := by
  intro h
  set x1 : List ℝ := (List.range 25).map fun k : Nat => (k : ℝ) with hx1
  set row : List ℝ := (List.range 24).map fun k : Nat => (k : ℝ) with hrow
  have hl1 : x1.length = 25 := by simp [hx1]
  have hlr : row.length = 24 := by simp [hrow]
  have hg1 : ∀ k < 25, x1.getD k 0 = k := by
    intro k hk; rw [List.getD_eq_getElem _ _ (by omega)]; simp [hx1]
  have hgr : ∀ k < 24, row.getD k 0 = k := by
    intro k hk; rw [List.getD_eq_getElem _ _ (by omega)]; simp [hrow]
  obtain ⟨hp1, hp2⟩ := sensing_dot_2d_partial true [0] x1 [row] rfl (by simp [hl1, hlr])
  obtain ⟨⟨a, b⟩, hab⟩ := hp1.mpr ⟨by omega, by simp⟩
  obtain ⟨i, j, ⟨hi, hj1, hj2⟩, _, hb, hmin⟩ := hp2 a b hab
  obtain ⟨i', j', ⟨hi', hj1', hj2'⟩, _, hb', hmax⟩ := h [0] x1 [row] rfl (by simp [hl1, hlr]) a b hab
  rw [hl1] at hj1 hj2 hj1' hj2'
  simp only [List.length_singleton, Nat.lt_one_iff] at hi hi'
  subst hi hi'
  have e1 : j = j' := by
    have : (j : ℝ) = j' := by rw [← hg1 j (by omega), ← hg1 j' (by omega), ← hb, ← hb']
    exact_mod_cast this
  subst e1
  have m1 := (hmin 0 1 ⟨by simp, by rw [hl1], by rw [hl1]; omega⟩).1 rfl
  have m2 := hmax 0 22 ⟨by simp, by rw [hl1]; omega, by rw [hl1]; omega⟩
  simp only [List.getD_cons_zero] at m1 m2
  rw [hgr 1 (by omega), hgr j (by omega)] at m1
  rw [hgr 22 (by omega), hgr j (by omega)] at m2
  have : (22 : ℝ) ≤ 1 := by
    calc (22 : ℝ) = ((22 : Nat) : ℝ) := by norm_num
      _ ≤ j := m2
      _ ≤ ((1 : Nat) : ℝ) := m1
      _ = 1 := by norm_num
  norm_num at this

/-! ## Range checks -/

theorem clip_eq_some {lo hi : EReal} {v : Val} {x : ℝ} :
    clip lo hi v = some x ↔ v = some x ∧ lo ≤ (x : EReal) ∧ (x : EReal) ≤ hi := by
  cases v with
  | none => simp [clip]
  | some y =>
    have hy : clip lo hi (some y) = if (y : EReal) < lo ∨ hi < (y : EReal) then none else some y := rfl
    rw [hy]
    by_cases hn : (y : EReal) < lo ∨ hi < (y : EReal)
    · rw [if_pos hn]
      constructor
      · intro h; cases h
      · rintro ⟨h, h1, h2⟩
        cases h
        rcases hn with hn | hn
        · exact absurd h1 (not_le.mpr hn)
        · exact absurd h2 (not_le.mpr hn)
    · rw [if_neg hn]
      push Not at hn
      constructor
      · intro h; cases h; exact ⟨rfl, hn⟩
      · rintro ⟨h, _⟩; exact h

/-- C93: `QQDLine` returns the mean of the widths exactly if there is a line, all widths are numbers and the mean is
inside the limits, and NaN otherwise; the variance is the squared standard error of the mean, which is not negative,
whether the mean is rejected or not.  `QQDLead` returns the fitted time exactly if it is inside the limits, and as variance the sum of
residuals relative to the reference.  Without given limits (`-inf`, `inf`) nothing is rejected. -/
theorem line_lead_range (lo hi : EReal) (widths : List Val) (error ref : ℝ) (value residuals : Val) :
    (∀ m, (lineProcess lo hi widths).1 = some m ↔ ∃ l : List ℝ, l ≠ [] ∧ widths = l.map some ∧ m = mean l ∧
      lo ≤ (m : EReal) ∧ (m : EReal) ≤ hi) ∧
    (∀ v, (lineProcess lo hi widths).2 = some v ↔ ∃ l : List ℝ, l ≠ [] ∧ widths = l.map some ∧ v = meanSquare l / l.length) ∧
    (∀ v, (lineProcess lo hi widths).2 = some v → 0 ≤ v) ∧
    (∀ v, (leadProcess error ref lo hi value residuals).2 = some v ↔ ∃ r, residuals = some r ∧ ref ≠ 0 ∧ v = error * r / ref) ∧
    (∀ x, (leadProcess error ref lo hi value residuals).1 = some x ↔
      value = some x ∧ lo ≤ (x : EReal) ∧ (x : EReal) ≤ hi) ∧
    (leadProcess error ref ⊥ ⊤ value residuals).1 = value ∧
    ∀ l : List ℝ, l ≠ [] → (lineProcess ⊥ ⊤ (l.map some)).1 = some (mean l) := by
  have hpres : ∀ l : List ℝ, present (l.map some) = l := by
    intro l; simp [present, List.filterMap_map]
  have hconv : ∀ l : List Val, none ∉ l → l = (present l).map some := by
    intro l
    induction l with
    | nil => intro _; rfl
    | cons a t ih =>
      intro h
      simp only [List.mem_cons, not_or] at h
      cases a with
      | none => exact absurd rfl h.1
      | some a =>
        have := ih h.2
        simp only [present, List.filterMap_cons, id, List.map_cons]
        rw [show List.filterMap (fun x : Val => x) t = present t from rfl, ← this]
  have hmean : ∀ m, npMean widths = some m ↔ ∃ l : List ℝ, l ≠ [] ∧ widths = l.map some ∧ m = mean l := by
    intro m
    unfold npMean
    constructor
    · intro h
      split at h
      · cases h
      · rename_i hn
        push Not at hn
        cases h
        refine ⟨present widths, fun h0 => hn.1 ?_, hconv widths hn.2, rfl⟩
        rw [hconv widths hn.2, h0]; rfl
    · rintro ⟨l, h1, rfl, rfl⟩
      rw [if_neg (by simp [h1]), hpres]
      rfl
  have hline : ∀ lo hi m, (lineProcess lo hi widths).1 = some m ↔ ∃ l : List ℝ, l ≠ [] ∧ widths = l.map some ∧
      m = mean l ∧ lo ≤ (m : EReal) ∧ (m : EReal) ≤ hi := by
    intro lo hi m
    unfold lineProcess
    simp only
    rw [clip_eq_some, hmean]
    constructor
    · rintro ⟨⟨l, h1, h2, h3⟩, h4, h5⟩; exact ⟨l, h1, h2, h3, h4, h5⟩
    · rintro ⟨l, h1, h2, h3, h4, h5⟩; exact ⟨⟨l, h1, h2, h3⟩, h4, h5⟩
  refine ⟨hline lo hi, ?_, ?_, ?_, fun x => clip_eq_some, ?_, ?_⟩
  · intro v
    unfold lineProcess npVarOfMean
    simp only
    constructor
    · intro h
      split at h
      · cases h
      · rename_i hn
        push Not at hn
        cases h
        refine ⟨present widths, fun h0 => hn.1 ?_, hconv widths hn.2, ?_⟩
        · rw [hconv widths hn.2, h0]; rfl
        · have hlen : widths.length = (present widths).length := by
            conv_lhs => rw [hconv widths hn.2]
            simp
          rw [hlen]
          rfl
    · rintro ⟨l, h1, rfl, rfl⟩
      rw [if_neg (by simp [h1]), hpres, List.length_map]
      rfl
  · intro v hv
    unfold lineProcess npVarOfMean at hv
    simp only at hv
    split at hv
    · cases hv
    · cases hv
      apply div_nonneg _ (by positivity)
      exact meanSquare_nonneg (present widths)
  · intro v
    unfold leadProcess
    rcases residuals with _ | r
    · simp [Val.mul, Val.div]
    · by_cases h : ref = 0
      · simp [Val.mul, Val.div, h]
      · simp [Val.mul, Val.div, h, eq_comm]
  · unfold leadProcess
    cases value with
    | none => rfl
    | some x => exact clip_eq_some.mpr ⟨rfl, bot_le, le_top⟩
  · intro l hl
    unfold lineProcess
    simp only
    rw [clip_eq_some]
    refine ⟨?_, bot_le, le_top⟩
    unfold npMean
    rw [if_neg (by simp [hl]), hpres]
    rfl

/-- Two lines, mean inside the limits. -/
example : (lineProcess ((1 : ℝ) : EReal) ((3 : ℝ) : EReal) [some 1, some 3]).1 = some 2 := by
  rw [(line_lead_range _ _ _ 1 1 none none).1]
  refine ⟨[1, 3], by simp, rfl, by norm_num [mean], ?_, ?_⟩ <;> rw [EReal.coe_le_coe_iff] <;> norm_num

/-- Its squared standard error: half of the mean squared deviation 1. -/
example : (lineProcess ((1 : ℝ) : EReal) ((3 : ℝ) : EReal) [some 1, some 3]).2 = some (1 / 2) := by
  rw [(line_lead_range _ _ _ 1 1 none none).2.1]
  exact ⟨[1, 3], by simp, rfl, by norm_num [mean, meanSquare]⟩

/-! ## QQDResp -/

/-- The lower limit that an argument means for a parameter. -/
noncomputable def LimArg.low (p : String) : LimArg → EReal
  | .none => ⊥
  | .scalar l => l
  | .series s => (s.lookup p).getD ⊥

/-- The upper limit that an argument means for a parameter. -/
noncomputable def LimArg.high (p : String) : LimArg → EReal
  | .none => ⊤
  | .scalar l => l
  | .series s => (s.lookup p).getD ⊤

/-- A Series of limits is given in the order of the parameters. -/
def LimArg.Ordered (params : List String) : LimArg → Prop
  | .series s => s.map Prod.fst = params
  | _ => True

/-- What is expected of the result: the `i`-th parameter has the measured position exactly if it is visible and inside
the limits, else NaN. -/
def RespCorrect (params : List String) (minHeight : EReal) (minArg maxArg : LimArg) (ana : List (Val × Val))
    (r : Except PyErr Series) : Prop :=
  ∃ s, r = .ok s ∧ s.index = params ∧ ∀ (i : Nat) (p : String) (pos vis : Val), params[i]? = some p → ana[i]? = some (pos, vis) →
    ∀ x, s.val p = some x ↔ pos = some x ∧ (∀ v, vis = some v → minHeight ≤ ((v : ℝ) : EReal)) ∧
      minArg.low p ≤ (x : EReal) ∧ (x : EReal) ≤ maxArg.high p

theorem visible_eq_some {mh : EReal} {pos vis : Val} {x : ℝ} :
    visible mh (pos, vis) = some x ↔ pos = some x ∧ ∀ v, vis = some v → mh ≤ ((v : ℝ) : EReal) := by
  unfold visible
  cases vis with
  | none => simp
  | some v =>
    simp only
    split
    · rename_i h
      simp only [reduceCtorEq, Option.some.injEq, forall_eq', false_iff, not_and, not_le]
      exact fun _ => h
    · rename_i h
      simp only [Option.some.injEq, forall_eq']
      exact ⟨fun hx => ⟨hx, not_lt.mp h⟩, fun hx => hx.1⟩

theorem checkPosition_eq {los his : List EReal} {i : Nat} {lo hi : EReal} (h1 : los[i]? = some lo)
    (h2 : his[i]? = some hi) (v : Val) : checkPosition los his i v = .ok (clip lo hi v) := by
  unfold checkPosition
  rw [h1, h2]
  dsimp only
  cases v with
  | none => simp [clip]
  | some x =>
    by_cases hx : (x : EReal) < lo
    · rw [if_pos]
      · simp [clip, hx]
      · simp [clip, hx]
    · rw [if_neg]
      · simp [clip, hx]
      · simp [clip, hx]

theorem values_get {params : List String} {arg : LimArg} (ho : arg.Ordered params) (hnd : params.Nodup) {i : Nat}
    {p : String} (hp : params[i]? = some p) :
    (arg ≠ .none → (arg.values params)[i]? = some (arg.high p)) ∧
    (arg.values params)[i]? = some (arg.low p) := by
  have hm : ∀ l : EReal, (params.map fun _ => l)[i]? = some l := by
    intro l; rw [List.getElem?_map, hp]; rfl
  cases arg with
  | none => exact ⟨fun h => absurd rfl h, hm _⟩
  | scalar l => exact ⟨fun _ => hm _, hm _⟩
  | series s =>
    have hs : s.map Prod.fst = params := ho
    have key : ∀ (s : List (String × EReal)) (i : Nat), (s.map Prod.fst).Nodup → (s.map Prod.fst)[i]? = some p →
        ∃ l, (s.map Prod.snd)[i]? = some l ∧ s.lookup p = some l := by
      intro s
      induction s with
      | nil => intro i _ h; simp at h
      | cons a t ih =>
        intro i hn h
        obtain ⟨a, l⟩ := a
        rw [List.map_cons, List.nodup_cons] at hn
        match i with
        | 0 =>
          simp at h
          subst h
          exact ⟨l, by simp, by simp⟩
        | i + 1 =>
          rw [List.map_cons, List.getElem?_cons_succ] at h
          obtain ⟨l', h1, h2⟩ := ih i hn.2 h
          refine ⟨l', by simpa using h1, ?_⟩
          have hne : p ≠ a := by
            intro he
            exact hn.1 (he ▸ List.mem_of_getElem? h)
          have : (p == a) = false := by simp [hne]
          rw [List.lookup_cons, this]
          exact h2
    obtain ⟨l, h1, h2⟩ := key s i (by rw [hs]; exact hnd) (by rw [hs]; exact hp)
    refine ⟨fun _ => ?_, ?_⟩
    · simp only [LimArg.values, LimArg.high]; rw [h1, h2]; rfl
    · simp only [LimArg.values, LimArg.low]; rw [h1, h2]; rfl

/-- C71 (partial): with an upper limit given, and limits given as Series being in the order of the parameters, `QQDResp`
passes on exactly the visible positions inside the limits, for two parameters.  Missing: no upper limit
(`resp_default_refuted`), Series in another order (`resp_order_refuted`), another number of parameters
(`resp_number_refuted`). -/
theorem resp_partial (a b : String) (hab : a ≠ b) (minHeight : EReal) (minArg maxArg : LimArg)
    (hmax : maxArg ≠ .none) (ho1 : minArg.Ordered [a, b]) (ho2 : maxArg.Ordered [a, b])
    (ana : List (Val × Val)) (hana : 2 ≤ ana.length) :
    RespCorrect [a, b] minHeight minArg maxArg ana (respEvaluate [a, b] minHeight minArg maxArg ana) := by
  obtain ⟨a0, a1, rest, rfl⟩ : ∃ a0 a1 rest, ana = a0 :: a1 :: rest := by
    match ana, hana with
    | a0 :: a1 :: rest, _ => exact ⟨a0, a1, rest, rfl⟩
  have hnd : [a, b].Nodup := by simp [hab]
  have e0 := checkPosition_eq (values_get ho1 hnd (i := 0) (p := a) rfl).2
    ((values_get ho2 hnd (i := 0) (p := a) rfl).1 hmax) (visible minHeight a0)
  have e1 := checkPosition_eq (values_get ho1 hnd (i := 1) (p := b) rfl).2
    ((values_get ho2 hnd (i := 1) (p := b) rfl).1 hmax) (visible minHeight a1)
  refine ⟨[(a, clip (minArg.low a) (maxArg.high a) (visible minHeight a0)),
    (b, clip (minArg.low b) (maxArg.high b) (visible minHeight a1))], ?_, rfl, ?_⟩
  · unfold respEvaluate
    dsimp only
    rw [e0]
    dsimp only
    rw [e1]
    simp
  · intro i p pos vis hp hpos x
    match i with
    | 0 =>
      simp at hp hpos
      subst hp hpos
      simp only [Series.val, List.lookup_cons, beq_self_eq_true, Option.join_some]
      rw [clip_eq_some, visible_eq_some, and_assoc]
    | 1 =>
      simp at hp hpos
      subst hp hpos
      have : (b == a) = false := by simp [Ne.symm hab]
      simp only [Series.val, List.lookup_cons, this, beq_self_eq_true, Option.join_some]
      rw [clip_eq_some, visible_eq_some, and_assoc]
    | i + 2 => simp at hp

/-- Limits 0 and 2, positions 1 and 3: the first is passed on, the second is NaN. -/
example : ∃ s, respEvaluate ["a", "b"] ⊥ (.scalar ((0 : ℝ) : EReal)) (.scalar ((2 : ℝ) : EReal))
    [(some 1, some 0), (some 3, some 0)] = .ok s ∧ s.val "a" = some 1 ∧ s.val "b" ≠ some 3 := by
  obtain ⟨s, h1, _, h3⟩ := resp_partial "a" "b" (by decide) ⊥ (.scalar ((0 : ℝ) : EReal)) (.scalar ((2 : ℝ) : EReal))
    (by simp) trivial trivial [(some 1, some 0), (some 3, some 0)] (by simp)
  refine ⟨s, h1, (h3 0 "a" _ _ rfl rfl 1).mpr ⟨rfl, fun _ _ => bot_le, ?_, ?_⟩, fun h => ?_⟩
  · simp [LimArg.low]
  · simp only [LimArg.high]; rw [EReal.coe_le_coe_iff]; norm_num
  · have := ((h3 1 "b" _ _ rfl rfl 3).mp h).2.2.2
    simp only [LimArg.high, EReal.coe_le_coe_iff] at this
    norm_num at this

/-- C71 is false: without an upper limit every position is rejected. -/
theorem resp_default_refuted (a b : String) (minHeight : EReal) (minArg : LimArg) (ho : minArg.Ordered [a, b])
    (ana : List (Val × Val)) (hana : 2 ≤ ana.length) (hab : a ≠ b) :
    ∃ s, respEvaluate [a, b] minHeight minArg .none ana = .ok s ∧ s.val a = none ∧ s.val b = none := by
  obtain ⟨a0, a1, rest, rfl⟩ : ∃ a0 a1 rest, ana = a0 :: a1 :: rest := by
    match ana, hana with
    | a0 :: a1 :: rest, _ => exact ⟨a0, a1, rest, rfl⟩
  have hnd : [a, b].Nodup := by simp [hab]
  have hbot : ∀ lo v, clip lo ⊥ v = none := by
    intro lo v
    cases h : clip lo ⊥ v with
    | none => rfl
    | some x =>
      have := (clip_eq_some.mp h).2.2
      rw [le_bot_iff] at this
      exact absurd this (EReal.coe_ne_bot x)
  have e0 := checkPosition_eq (his := LimArg.none.values [a, b]) (hi := ⊥) (values_get ho hnd (i := 0) (p := a) rfl).2 rfl
    (visible minHeight a0)
  have e1 := checkPosition_eq (his := LimArg.none.values [a, b]) (hi := ⊥) (values_get ho hnd (i := 1) (p := b) rfl).2 rfl
    (visible minHeight a1)
  rw [hbot] at e0 e1
  refine ⟨[(a, none), (b, none)], ?_, by simp [Series.val], ?_⟩
  · unfold respEvaluate
    dsimp only
    rw [e0]
    dsimp only
    rw [e1]
    simp
  · have : (b == a) = false := by simp [Ne.symm hab]
    simp [Series.val, List.lookup_cons, this]

/-- C71 is false: limits given as Series in another order than the parameters are applied to the wrong parameter. -/
theorem resp_order_refuted : ∃ (minArg maxArg : LimArg) (ana : List (Val × Val)), maxArg ≠ .none ∧ 2 ≤ ana.length ∧
    ¬ RespCorrect ["a", "b"] ⊥ minArg maxArg ana (respEvaluate ["a", "b"] ⊥ minArg maxArg ana) := by
  refine ⟨.scalar ⊥, .series [("b", ((0 : ℝ) : EReal)), ("a", ((2 : ℝ) : EReal))], [(some 1, some 0), (some 1, some 0)],
    by simp, by simp, ?_⟩
  rintro ⟨s, h1, _, h3⟩
  have ha := (h3 0 "a" _ _ rfl rfl 1).mpr ⟨rfl, fun _ _ => bot_le, by simp [LimArg.low], by
    simp only [LimArg.high, List.lookup]
    simp only [show ("a" == "b") = false from by decide, beq_self_eq_true, Option.getD_some, EReal.coe_le_coe_iff]
    norm_num⟩
  have e0 := checkPosition_eq (los := (LimArg.scalar ⊥).values ["a", "b"])
    (his := (LimArg.series [("b", ((0 : ℝ) : EReal)), ("a", ((2 : ℝ) : EReal))]).values ["a", "b"])
    (i := 0) (lo := ⊥) (hi := ((0 : ℝ) : EReal)) rfl rfl (visible ⊥ (some 1, some 0))
  have hc : clip ⊥ ((0 : ℝ) : EReal) (visible ⊥ (some 1, some 0)) = none := by
    cases h : clip ⊥ ((0 : ℝ) : EReal) (visible ⊥ (some 1, some 0)) with
    | none => rfl
    | some x =>
      obtain ⟨h4, _, h5⟩ := clip_eq_some.mp h
      have := (visible_eq_some.mp h4).1
      cases this
      rw [EReal.coe_le_coe_iff] at h5
      norm_num at h5
  rw [hc] at e0
  unfold respEvaluate at h1
  dsimp only at h1
  rw [e0] at h1
  dsimp only at h1
  split at h1
  · cases h1
  · rename_i p1 _
    simp only [List.length_cons, List.length_nil, if_true] at h1
    cases Except.ok.inj h1
    simp [Series.val, List.lookup] at ha

/-- C71 is false: with another number of parameters than two the evaluator always raises. -/
theorem resp_number_refuted (params : List String) (hp : params.length ≠ 2) (minHeight : EReal) (minArg maxArg : LimArg)
    (ana : List (Val × Val)) : ∃ e, respEvaluate params minHeight minArg maxArg ana = .error e := by
  unfold respEvaluate
  split
  · split
    · exact ⟨_, rfl⟩
    · split
      · exact ⟨_, rfl⟩
      · rw [if_neg hp]; exact ⟨_, rfl⟩
  · exact ⟨_, rfl⟩

end Qtune.Evaluator
