import Mathlib.Tactic.Ring
import Mathlib.Tactic.NormNum
import Mathlib.Tactic.Linarith
import Mathlib.Tactic.Push
import Mathlib.Tactic.ByContra
import Verif.Matlab.VoltSpec

/-!
# Setting gate voltages through MATLAB: subsets and limits
-/

namespace Qtune.Matlab

/-! ## Lemmas -/

theorem smset_apply (l : Series) (hl : l.index.Nodup) (v : Volts) (g : String) :
    smset v l g = (l.lookup g).getD (v g) := by
  induction l generalizing v with
  | nil => rfl
  | cons p t ih =>
    obtain ⟨a, x⟩ := p
    have ha : a ∉ Series.index t ∧ (Series.index t).Nodup := by
      simpa [Series.index, List.nodup_cons] using hl
    show smset (Function.update v a x) t g = _
    rw [ih ha.2, List.lookup_cons]
    by_cases h : g = a
    · subst h
      have : List.lookup g t = none := by
        rw [List.lookup_eq_none_iff]
        intro p hp
        have : g ≠ p.1 := fun h => ha.1 (h ▸ List.mem_map_of_mem hp)
        simpa using this
      simp [this]
    · simp [h, beq_eq_false_iff_ne.2 h]

theorem lookup_smget (v : Volts) (names : List String) (g : String) :
    (smget v names).lookup g = if g ∈ names then some (v g) else none :=
  Series.lookup_map_mk names v g

theorem index_smget (v : Volts) (names : List String) : (smget v names).index = names :=
  Series.index_map_mk names v

/-- The Series that is sent to MATLAB. -/
theorem overwrite_smget {v : Volts} {gates : List String} {new all : Series}
    (h : overwrite (smget v gates) new = .ok all) :
    (∀ l ∈ new.index, l ∈ gates) ∧ all = smget (exactly v new) gates := by
  unfold overwrite at h
  rw [index_smget] at h
  split at h
  · rename_i hl
    refine ⟨hl, ?_⟩
    cases Except.ok.inj h
    unfold smget exactly
    rw [List.map_map]
    refine List.map_congr_left fun g _ => ?_
    simp only [Function.comp_def]
    cases List.lookup g new <;> rfl
  · cases h

theorem overwrite_smget_ok {v : Volts} {gates : List String} {new : Series}
    (h : ∀ l ∈ new.index, l ∈ gates) :
    overwrite (smget v gates) new = .ok (smget (exactly v new) gates) := by
  cases ho : overwrite (smget v gates) new with
  | ok all => rw [(overwrite_smget ho).2]
  | error e =>
    unfold overwrite at ho
    rw [index_smget, if_pos h] at ho
    cases ho

theorem overwrite_smget_err {v : Volts} {gates : List String} {new : Series}
    (h : ¬ ∀ l ∈ new.index, l ∈ gates) :
    overwrite (smget v gates) new = .error .keyError := by
  unfold overwrite
  rw [index_smget, if_neg h]

theorem exactly_number {v : Volts} {gates : List String} {new : Series} (hv : Numbers v gates)
    (hn : Proper new) (g : String) (hg : g ∈ gates) : ∃ x, exactly v new g = some x := by
  unfold exactly
  cases h : List.lookup g new with
  | none => exact Option.ne_none_iff_exists'.1 (hv g hg)
  | some y =>
    refine Option.ne_none_iff_exists'.1 (hn.2 (g, y) ?_)
    obtain ⟨l₁, l₂, rfl, _⟩ := List.lookup_eq_some_iff.1 h
    simp

theorem smset_smget {gates : List String} (hg : gates.Nodup) (v w : Volts) (g : String) :
    smset v (smget w gates) g = if g ∈ gates then w g else v g := by
  rw [smset_apply _ (by rw [index_smget]; exact hg), lookup_smget]
  split <;> rfl

/-- A channel that is no gate is not among the labels, so nothing is changed. -/
theorem exactly_of_not_mem {v : Volts} {gates : List String} {new : Series}
    (h : ∀ l ∈ new.index, l ∈ gates) {g : String} (hg : g ∉ gates) : exactly v new g = v g := by
  unfold exactly
  have : List.lookup g new = none := by
    rw [List.lookup_eq_none_iff]
    intro p hp
    have : g ≠ p.1 := fun he => hg (he ▸ h p.1 (List.mem_map_of_mem hp))
    simpa using this
  rw [this]

theorem smset_exactly {gates : List String} (hg : gates.Nodup) {v : Volts} {new : Series}
    (h : ∀ l ∈ new.index, l ∈ gates) : smset v (smget (exactly v new) gates) = exactly v new := by
  funext g
  rw [smset_smget hg]
  split
  · rfl
  · rename_i hn
    rw [exactly_of_not_mem h hn]

/-! ## The quadruple dot -/

/-- The values are inside the limits of the quadruple dot. -/
def QqdAllowed (gates : List String) (v w : Volts) : Prop :=
  ∀ g ∈ gates, Within (-1.3) 0 w g ∧ Near 10e-3 v w g

theorem setQqd_cases {pre gates : List String} (hp : ∀ g ∈ gates, g ∈ pre) {v w : Volts}
    (hv : Numbers v gates) (hw : Numbers w gates) :
    (QqdAllowed gates v w ∧ setQqd pre v (smget w gates) =
      (smset v (smget w gates), .ok (smget (smset v (smget w gates)) gates))) ∨
    (¬ QqdAllowed gates v w ∧ setQqd pre v (smget w gates) = (v, .error (.other 2))) := by
  unfold setQqd
  rw [index_smget, if_neg (not_not.2 hp)]
  split
  · rename_i h
    obtain ⟨_, hgm, x, y, h1, h2, h3⟩ := h
    obtain ⟨g, hg, rfl⟩ := List.mem_map.1 hgm
    refine .inr ⟨fun hA => ?_, rfl⟩
    obtain ⟨⟨z, hz, _, hz'⟩, _⟩ := hA g hg
    dsimp only at h1
    rw [hz] at h1
    cases h1; cases h2
    linarith
  split
  · rename_i h
    obtain ⟨_, hgm, x, y, h1, h2, h3⟩ := h
    obtain ⟨g, hg, rfl⟩ := List.mem_map.1 hgm
    refine .inr ⟨fun hA => ?_, rfl⟩
    obtain ⟨⟨z, hz, hz', _⟩, _⟩ := hA g hg
    dsimp only at h2
    rw [hz] at h2
    cases h1; cases h2
    linarith
  split
  · rename_i h
    obtain ⟨_, hgm, x, y, h1, h2, h3⟩ := h
    obtain ⟨g, hg, rfl⟩ := List.mem_map.1 hgm
    refine .inr ⟨fun hA => ?_, rfl⟩
    obtain ⟨_, a, b, ha, hb, hab⟩ := hA g hg
    dsimp only at h1
    rw [ha, hb] at h1
    cases h1; cases h2
    exact absurd h3 (not_lt.2 hab)
  · rename_i h1 h2 h3
    refine .inl ⟨fun g hg => ?_, rfl⟩
    obtain ⟨x, hx⟩ := Option.ne_none_iff_exists'.1 (hw g hg)
    obtain ⟨y, hy⟩ := Option.ne_none_iff_exists'.1 (hv g hg)
    refine ⟨⟨x, hx, ?_, ?_⟩, y, x, hy, hx, ?_⟩
    · by_contra hc
      exact h2 ⟨(g, w g), List.mem_map.2 ⟨g, hg, rfl⟩, _, x, rfl, hx, not_le.1 hc⟩
    · by_contra hc
      exact h1 ⟨(g, w g), List.mem_map.2 ⟨g, hg, rfl⟩, x, _, hx, rfl, not_le.1 hc⟩
    · by_contra hc
      refine h3 ⟨(g, w g), List.mem_map.2 ⟨g, hg, rfl⟩, |y - x|, _, ?_, rfl, not_le.1 hc⟩
      dsimp only
      rw [hx, hy]; rfl

/-- C74 (quadruple dot): a call that succeeds changes exactly the gates of its argument and
returns the voltages of all gates; a call that fails changes nothing.  It fails exactly if a
label is no gate, or if afterwards a gate (also one that is not in the argument) would be
outside of [-1.3 V, 0 V] or would have moved by more than 10 mV. -/
theorem qqd_set_subset (pre gates : List String) (hg : gates.Nodup)
    (hp : ∀ g ∈ gates, g ∈ pre) (v : Volts) (hv : Numbers v gates) (new : Series)
    (hn : Proper new) :
    ((∀ l ∈ new.index, l ∈ gates) ∧ QqdAllowed gates v (exactly v new) →
      qqdSetGateVoltages pre gates v new =
        (exactly v new, .ok (smget (exactly v new) gates))) ∧
    (¬ ((∀ l ∈ new.index, l ∈ gates) ∧ QqdAllowed gates v (exactly v new)) →
      ∃ e, qqdSetGateVoltages pre gates v new = (v, .error e)) := by
  unfold qqdSetGateVoltages
  by_cases hl : ∀ l ∈ new.index, l ∈ gates
  · rw [overwrite_smget_ok hl]
    have hw : Numbers (exactly v new) gates := fun g hg =>
      Option.ne_none_iff_exists'.2 (exactly_number hv hn g hg)
    rcases setQqd_cases hp hv hw with ⟨hA, he⟩ | ⟨hA, he⟩
    · rw [smset_exactly hg hl] at he
      refine ⟨fun _ => ?_, fun h => absurd ⟨hl, hA⟩ h⟩
      simp only [he]
    · refine ⟨fun h => absurd h.2 hA, fun _ => ⟨.other 2, ?_⟩⟩
      simp only [he]
  · rw [overwrite_smget_err hl]
    exact ⟨fun h => absurd h.1 hl, fun _ => ⟨_, rfl⟩⟩

/-- One of two gates is moved by 5 mV. -/
example : qqdSetGateVoltages ["A", "B"] ["A", "B"] (fun _ => some (-0.5)) [("B", some (-0.495))] =
    (exactly (fun _ => some (-0.5)) [("B", some (-0.495))],
      .ok [("A", some (-0.5)), ("B", some (-0.495))]) := by
  refine ((qqd_set_subset ["A", "B"] ["A", "B"] (by decide) (by simp) (fun _ => some (-0.5))
    (fun _ _ => by simp) [("B", some (-0.495))] ⟨by decide, by simp⟩).1 ⟨by decide, ?_⟩).trans rfl
  intro g hg
  simp only [List.mem_cons, List.not_mem_nil, or_false] at hg
  rcases hg with rfl | rfl
  · exact ⟨⟨-0.5, rfl, by norm_num, by norm_num⟩, -0.5, -0.5, rfl, rfl, by norm_num⟩
  · refine ⟨⟨-0.495, rfl, by norm_num, by norm_num⟩, -0.5, -0.495, rfl, rfl, ?_⟩
    rw [abs_le]; constructor <;> norm_num

theorem qqd_step {pre gates : List String} (hg : gates.Nodup) (hp : ∀ g ∈ gates, g ∈ pre)
    {v : Volts} (hv : Numbers v gates) {new : Series} (hn : Proper new) :
    (qqdSetGateVoltages pre gates v new).1 = v ∨
      QqdAllowed gates v (qqdSetGateVoltages pre gates v new).1 := by
  obtain ⟨h1, h2⟩ := qqd_set_subset pre gates hg hp v hv new hn
  by_cases h : (∀ l ∈ new.index, l ∈ gates) ∧ QqdAllowed gates v (exactly v new)
  · rw [h1 h]; exact .inr h.2
  · obtain ⟨e, he⟩ := h2 h
    rw [he]; exact .inl rfl

/-- Limits of the quadruple dot, partial: after any sequence of calls without NaN, whatever
their outcome, every gate is still in [-1.3 V, 0 V] if it was at the beginning, and no call
moves a gate by more than 10 mV.  Missing, because it is false (`qqd_limits_refuted`): calls
with NaN. -/
theorem qqd_limits_partial (pre gates : List String) (hg : gates.Nodup)
    (hp : ∀ g ∈ gates, g ∈ pre) (v : Volts) (hv : ∀ g ∈ gates, Within (-1.3) 0 v g)
    (calls : List Series) (hc : ∀ new ∈ calls, Proper new) :
    (∀ g ∈ gates, Within (-1.3) 0 (afterCalls (qqdSetGateVoltages pre gates) v calls) g) ∧
    ∀ (before : List Series) (new : Series), (before ++ [new]) <+: calls → ∀ g ∈ gates,
      Near 10e-3 (afterCalls (qqdSetGateVoltages pre gates) v before)
        (afterCalls (qqdSetGateVoltages pre gates) v (before ++ [new])) g := by
  have inv : ∀ (calls : List Series) (v : Volts), (∀ g ∈ gates, Within (-1.3) 0 v g) →
      (∀ new ∈ calls, Proper new) →
      ∀ g ∈ gates, Within (-1.3) 0 (afterCalls (qqdSetGateVoltages pre gates) v calls) g := by
    intro calls
    induction calls with
    | nil => intro v hv _; exact hv
    | cons new t ih =>
      intro v hv hc
      refine ih _ ?_ fun n hn => hc n (by simp [hn])
      have hnum : Numbers v gates := fun g hg => by
        obtain ⟨x, hx, _⟩ := hv g hg
        rw [hx]; simp
      rcases qqd_step hg hp hnum (hc new (by simp)) with h | h
      · dsimp only; rw [h]; exact hv
      · exact fun g hg => (h g hg).1
  refine ⟨inv calls v hv hc, ?_⟩
  intro before new hpre g hgm
  have hsub : ∀ n ∈ before ++ [new], Proper n := fun n hn => hc n (hpre.subset hn)
  have hb := inv before v hv fun n hn => hsub n (by simp [hn])
  have hnum : Numbers (afterCalls (qqdSetGateVoltages pre gates) v before) gates :=
    fun g hg => by
      obtain ⟨x, hx, _⟩ := hb g hg
      rw [hx]; simp
  have hstep : afterCalls (qqdSetGateVoltages pre gates) v (before ++ [new]) =
      (qqdSetGateVoltages pre gates (afterCalls (qqdSetGateVoltages pre gates) v before) new).1 := by
    unfold afterCalls
    rw [List.foldl_append]; rfl
  rw [hstep]
  rcases qqd_step hg hp hnum (hsub new (by simp)) with h | h
  · rw [h]
    obtain ⟨x, hx, _⟩ := hb g hgm
    exact ⟨x, x, hx, hx, by norm_num⟩
  · exact (h g hgm).2

/-- The limits of the quadruple dot do not stop NaN: it is sent to the instrument. -/
theorem qqd_limits_refuted :
    qqdSetGateVoltages ["A"] ["A"] (fun _ => some (-0.5)) [("A", none)] =
      (smset (fun _ => some (-0.5)) [("A", none)], .ok [("A", none)]) := by
  unfold qqdSetGateVoltages
  rw [overwrite_smget_ok (by decide)]
  have : smget (exactly (fun _ => some (-0.5)) [("A", none)]) ["A"] = [("A", none)] := rfl
  rw [this]
  have h : setQqd ["A"] (fun _ => some (-0.5)) [("A", none)] =
      (smset (fun _ => some (-0.5)) [("A", none)], .ok [("A", none)]) := by
    unfold setQqd
    rw [if_neg (by decide), if_neg (by simp [gtv]), if_neg (by simp [gtv]),
      if_neg (by simp [gtv, Val.abs])]
    rfl
  simp only [h]
  rfl

/-- `set_qqd_gate_voltages_abs_limit`, partial: no gate is set above -0.4 V, a refused call
changes nothing.  Missing, because it is false (`abs_limit_refuted`): the lower limit. -/
theorem abs_limit_partial (pre gates : List String) (hg : gates.Nodup) (v w : Volts)
    (hw : Numbers w gates) :
    (∃ e, setQqdAbsLimit pre v (smget w gates) = (v, .error e)) ∨
    ((setQqdAbsLimit pre v (smget w gates)).1 = smset v (smget w gates) ∧
      ∀ g ∈ gates, ∃ x, (setQqdAbsLimit pre v (smget w gates)).1 g = some x ∧ x ≤ -0.4) := by
  unfold setQqdAbsLimit
  split
  · exact .inl ⟨_, rfl⟩
  split
  · exact .inl ⟨_, rfl⟩
  split
  · exact .inl ⟨_, rfl⟩
  · rename_i h1 _
    refine .inr ⟨rfl, fun g hgm => ?_⟩
    obtain ⟨x, hx⟩ := Option.ne_none_iff_exists'.1 (hw g hgm)
    refine ⟨x, ?_, ?_⟩
    · dsimp only
      rw [smset_smget hg, if_pos hgm, hx]
    · by_contra hc
      exact h1 ⟨(g, w g), List.mem_map.2 ⟨g, hgm, rfl⟩, x, _, hx, rfl, not_le.1 hc⟩

/-- The lower limit of `set_qqd_gate_voltages_abs_limit` is not enforced: every voltage
below -1.3 V is set, however low. -/
theorem abs_limit_refuted (x : ℝ) (hx : x < -1.3) :
    setQqdAbsLimit ["A"] (fun _ => some (-1)) [("A", some x)] =
      (smset (fun _ => some (-1)) [("A", some x)], .ok [("A", some x)]) := by
  unfold setQqdAbsLimit
  rw [if_neg (by simp [Series.index]), if_neg, if_neg]
  · rfl
  · rintro ⟨p, hp, a, b, h1, h2, h3⟩
    cases List.mem_singleton.1 hp
    cases h1; cases h2
    norm_num at h3 hx
    linarith
  · rintro ⟨p, hp, a, b, h1, h2, h3⟩
    cases List.mem_singleton.1 hp
    cases h1; cases h2
    norm_num at h3 hx
    linarith

/-! ## The double dot -/

theorem dqdGates_nodup : dqdGates.Nodup := by decide

theorem dotGates_sub {g : String} (h : g ∈ dotGates) : g ∈ dqdGates := by
  unfold dqdGates; exact List.mem_append_left _ h

/-- What `set_gates_v_pretuned` accepts: dot gates at most 30 mV away from the pretuned
point, sensor gates at most 30 mV above it. -/
def DqdAllowed (pre w : Volts) : Prop :=
  (∀ g ∈ ["SB", "BB", "T", "N", "SA", "BA", "RFA", "RFB"], Near 30e-3 pre w g) ∧
    ∀ g ∈ ["SDB2", "SDB1"], ∃ x y, pre g = some x ∧ w g = some y ∧ y - x ≤ 30e-3

theorem val_smget (w : Volts) {gates : List String} {g : String} (hg : g ∈ gates) :
    (smget w gates).val g = w g := by
  unfold smget
  rw [Series.val_map_mk, if_pos hg]

theorem setPretuned_cases {pre v w : Volts} (hpre : Numbers pre dqdGates)
    (hw : Numbers w dqdGates) :
    (DqdAllowed pre w ∧ setPretuned pre v (smget w dqdGates) =
      (smset v (smget w dqdGates), .ok (smget (smset v (smget w dqdGates)) dqdGates))) ∨
    (¬ DqdAllowed pre w ∧ setPretuned pre v (smget w dqdGates) =
      (smset v (smget pre dqdGates), .error (.other 2))) := by
  have hall : ¬ ∃ g ∈ dqdGates, (smget w dqdGates).lookup g = none := by
    rintro ⟨g, hg, h⟩
    rw [lookup_smget, if_pos hg] at h
    cases h
  have hargs : (dqdGates.map fun g => (g, (smget w dqdGates).val g)) = smget w dqdGates :=
    List.map_congr_left fun g hg => by rw [val_smget w hg]
  have hs2 : "SDB2" ∈ dqdGates := by decide
  have hs1 : "SDB1" ∈ dqdGates := by decide
  unfold setPretuned
  rw [if_neg hall, hargs]
  dsimp only
  rw [val_smget w hs2, val_smget w hs1]
  split
  · rename_i h
    refine .inr ⟨?_, rfl⟩
    rintro ⟨hA, hB⟩
    rcases h with ⟨g, hg, x, y, h1, h2, h3⟩ | ⟨x, y, h1, h2, h3⟩ | ⟨x, y, h1, h2, h3⟩
    · obtain ⟨a, b, ha, hb, hab⟩ := hA g hg
      rw [val_smget w (dotGates_sub hg), ha, hb] at h1
      cases h1; cases h2
      exact absurd h3 (not_lt.2 hab)
    · obtain ⟨a, b, ha, hb, hab⟩ := hB "SDB2" (by simp)
      rw [ha, hb] at h1
      cases h1; cases h2
      exact absurd h3 (not_lt.2 hab)
    · obtain ⟨a, b, ha, hb, hab⟩ := hB "SDB1" (by simp)
      rw [ha, hb] at h1
      cases h1; cases h2
      exact absurd h3 (not_lt.2 hab)
  · rename_i h
    push Not at h
    obtain ⟨h1, h2, h3⟩ := h
    refine .inl ⟨⟨fun g hg => ?_, fun g hg => ?_⟩, rfl⟩
    · obtain ⟨x, hx⟩ := Option.ne_none_iff_exists'.1 (hpre g (dotGates_sub hg))
      obtain ⟨y, hy⟩ := Option.ne_none_iff_exists'.1 (hw g (dotGates_sub hg))
      refine ⟨x, y, hx, hy, ?_⟩
      by_contra hc
      refine h1 g hg ⟨|x - y|, _, ?_, rfl, not_le.1 hc⟩
      rw [val_smget w (dotGates_sub hg), hx, hy]; rfl
    · have hgm : g ∈ dqdGates := by
        simp only [List.mem_cons, List.not_mem_nil, or_false] at hg
        rcases hg with rfl | rfl <;> assumption
      obtain ⟨x, hx⟩ := Option.ne_none_iff_exists'.1 (hpre g hgm)
      obtain ⟨y, hy⟩ := Option.ne_none_iff_exists'.1 (hw g hgm)
      refine ⟨x, y, hx, hy, ?_⟩
      by_contra hc
      have hgt : gtv (Val.sub (w g) (pre g)) (some 30e-3) :=
        ⟨y - x, _, by rw [hx, hy]; rfl, rfl, not_le.1 hc⟩
      simp only [List.mem_cons, List.not_mem_nil, or_false] at hg
      rcases hg with rfl | rfl
      · exact h2 hgt
      · exact h3 hgt

/-- C74 (double dot), partial: a call that succeeds changes exactly the gates of its argument
and returns the voltages of all gates; a call with an unknown gate changes nothing; every
other call that fails leaves all gates at the pretuned point.  Missing, because it is false
(`dqd_set_subset_refuted`): a call that fails changes nothing. -/
theorem dqd_set_subset_partial (pre v : Volts) (hpre : Numbers pre dqdGates) (hv : Numbers v dqdGates)
    (new : Series) (hn : Proper new) :
    ((∀ l ∈ new.index, l ∈ dqdGates) ∧ DqdAllowed pre (exactly v new) →
      dqdSetGateVoltages pre v new =
        (exactly v new, .ok (smget (exactly v new) dqdGates))) ∧
    ((∃ l ∈ new.index, l ∉ dqdGates) → dqdSetGateVoltages pre v new = (v, .error .keyError)) ∧
    ((∀ l ∈ new.index, l ∈ dqdGates) ∧ ¬ DqdAllowed pre (exactly v new) →
      (dqdSetGateVoltages pre v new).2 = .error (.other 2) ∧
      ∀ g, (dqdSetGateVoltages pre v new).1 g = if g ∈ dqdGates then pre g else v g) := by
  unfold dqdSetGateVoltages
  by_cases hl : ∀ l ∈ new.index, l ∈ dqdGates
  · rw [overwrite_smget_ok hl]
    have hw : Numbers (exactly v new) dqdGates := fun g hg =>
      Option.ne_none_iff_exists'.2 (exactly_number hv hn g hg)
    refine ⟨fun h => ?_, fun ⟨l, h1, h2⟩ => absurd (hl l h1) h2, fun h => ?_⟩
    · rcases setPretuned_cases (v := v) hpre hw with ⟨_, he⟩ | ⟨hA, _⟩
      · rw [smset_exactly dqdGates_nodup hl] at he
        exact he
      · exact absurd h.2 hA
    · rcases setPretuned_cases (v := v) hpre hw with ⟨hA, _⟩ | ⟨_, he⟩
      · exact absurd hA h.2
      · dsimp only
        rw [he]
        exact ⟨rfl, fun g => smset_smget dqdGates_nodup v pre g⟩
  · rw [overwrite_smget_err hl]
    exact ⟨fun h => absurd h.1 hl, fun _ => rfl, fun h => absurd h.1 hl⟩

/-- C74 is false for the double dot: every call that is refused moves every gate that is away
from the pretuned point, whether the gate is in its argument or not. -/
theorem dqd_set_subset_refuted (pre v : Volts) (hpre : Numbers pre dqdGates)
    (hv : Numbers v dqdGates) (new : Series) (hn : Proper new)
    (hl : ∀ l ∈ new.index, l ∈ dqdGates) (hA : ¬ DqdAllowed pre (exactly v new))
    (g : String) (hg : g ∈ dqdGates) (hne : v g ≠ pre g) :
    (dqdSetGateVoltages pre v new).2 = .error (.other 2) ∧
    (dqdSetGateVoltages pre v new).1 g ≠ v g := by
  have h := (dqd_set_subset_partial pre v hpre hv new hn).2.2 ⟨hl, hA⟩
  refine ⟨h.1, ?_⟩
  rw [h.2 g, if_pos hg]
  exact fun he => hne he.symm

/-- A call for the gate T that is refused moves the gate N from -1.02 V to the pretuned -1 V. -/
example :
    (dqdSetGateVoltages (fun _ => some (-1)) (fun _ => some (-1.02)) [("T", some (-1.1))]).1 "N" ≠
      some (-1.02) := by
  refine (dqd_set_subset_refuted (fun _ => some (-1)) (fun _ => some (-1.02))
    (fun _ _ => by simp) (fun _ _ => by simp) [("T", some (-1.1))] ⟨by decide, by simp⟩
    (by simp [Series.index, dqdGates, dotGates]) ?_ "N" (by decide) ?_).2
  · rintro ⟨hA, _⟩
    obtain ⟨x, y, hx, hy, hxy⟩ := hA "T" (by decide)
    cases hx
    cases hy
    rw [abs_le] at hxy
    norm_num at hxy
  · intro h
    have := Option.some.inj h
    norm_num at this

/-- Two gates of the double dot are moved by 20 mV. -/
example : (dqdSetGateVoltages (fun _ => some (-1)) (fun _ => some (-1))
      [("T", some (-0.98)), ("SDB1", some (-1.02))]).2.isOk = true := by
  rw [(dqd_set_subset_partial (fun _ => some (-1)) (fun _ => some (-1)) (fun _ _ => by simp)
    (fun _ _ => by simp) [("T", some (-0.98)), ("SDB1", some (-1.02))]
    ⟨by decide, by simp⟩).1 ⟨by decide, ?_, ?_⟩]
  · rfl
  · intro g hg
    by_cases h : g = "T"
    · subst h
      refine ⟨-1, -0.98, rfl, rfl, ?_⟩
      rw [abs_le]; constructor <;> norm_num
    · refine ⟨-1, -1, rfl, ?_, by norm_num⟩
      have h' : g ≠ "SDB1" := by rintro rfl; exact absurd hg (by decide)
      simp [exactly, List.lookup_cons, beq_eq_false_iff_ne.2 h, beq_eq_false_iff_ne.2 h']
  · intro g hg
    simp only [List.mem_cons, List.not_mem_nil, or_false] at hg
    rcases hg with rfl | rfl
    · exact ⟨-1, -1, rfl, rfl, by norm_num⟩
    · exact ⟨-1, -1.02, rfl, rfl, by norm_num⟩

/-- Limits of the double dot, partial: after any sequence of calls without NaN, whatever
their outcome, the eight dot gates are at most 30 mV away from the pretuned point and the
two sensor gates at most 30 mV above it, if this was so at the beginning.  Missing, because
it is false (`dqd_limits_refuted`): the limit for sensor gates in the other direction, and
NaN. -/
theorem dqd_limits_partial (pre v : Volts) (hv : DqdAllowed pre v) (calls : List Series)
    (hc : ∀ new ∈ calls, Proper new) :
    DqdAllowed pre (afterCalls (dqdSetGateVoltages pre) v calls) := by
  have hnum : ∀ w, DqdAllowed pre w → Numbers pre dqdGates ∧ Numbers w dqdGates := by
    rintro w ⟨hA, hB⟩
    have : ∀ g ∈ dqdGates, pre g ≠ none ∧ w g ≠ none := by
      intro g hg
      rcases List.mem_append.1 hg with h | h
      · obtain ⟨x, y, hx, hy, _⟩ := hA g h
        rw [hx, hy]; simp
      · obtain ⟨x, y, hx, hy, _⟩ := hB g h
        rw [hx, hy]; simp
    exact ⟨fun g hg => (this g hg).1, fun g hg => (this g hg).2⟩
  have hself : Numbers pre dqdGates → ∀ w, (∀ g ∈ dqdGates, w g = pre g) → DqdAllowed pre w := by
    intro hpre w hw
    refine ⟨fun g hg => ?_, fun g hg => ?_⟩
    · obtain ⟨x, hx⟩ := Option.ne_none_iff_exists'.1 (hpre g (dotGates_sub hg))
      exact ⟨x, x, hx, by rw [hw g (dotGates_sub hg), hx], by norm_num⟩
    · have hgm : g ∈ dqdGates := by unfold dqdGates; exact List.mem_append_right _ hg
      obtain ⟨x, hx⟩ := Option.ne_none_iff_exists'.1 (hpre g hgm)
      exact ⟨x, x, hx, by rw [hw g hgm, hx], by norm_num⟩
  induction calls generalizing v with
  | nil => exact hv
  | cons new t ih =>
    refine ih _ ?_ fun n hn => hc n (by simp [hn])
    obtain ⟨h1, h2, h3⟩ :=
      dqd_set_subset_partial pre v (hnum v hv).1 (hnum v hv).2 new (hc new (by simp))
    by_cases hl : ∀ l ∈ new.index, l ∈ dqdGates
    · by_cases hA : DqdAllowed pre (exactly v new)
      · dsimp only; rw [h1 ⟨hl, hA⟩]; exact hA
      · refine hself (hnum v hv).1 _ fun g hg => ?_
        dsimp only
        rw [(h3 ⟨hl, hA⟩).2 g, if_pos hg]
    · push Not at hl
      dsimp only
      rw [h2 hl]; exact hv

/-- A sensor gate of the double dot can be moved down without any limit: every voltage below
the pretuned point is set. -/
theorem dqd_limits_refuted (x : ℝ) (hx : x ≤ -1) :
    dqdSetGateVoltages (fun _ => some (-1)) (fun _ => some (-1)) [("SDB1", some x)] =
      (exactly (fun _ => some (-1)) [("SDB1", some x)],
        .ok (smget (exactly (fun _ => some (-1)) [("SDB1", some x)]) dqdGates)) := by
  refine (dqd_set_subset_partial (fun _ => some (-1)) (fun _ => some (-1)) (fun _ _ => by simp)
    (fun _ _ => by simp) [("SDB1", some x)] ⟨by simp [Series.index], by simp⟩).1 ⟨?_, ?_, ?_⟩
  · intro l hl
    rw [List.mem_singleton.1 hl]; simp [dqdGates]
  · intro g hg
    refine ⟨-1, -1, rfl, ?_, by norm_num⟩
    have h' : g ≠ "SDB1" := by rintro rfl; exact absurd hg (by decide)
    simp [exactly, List.lookup_cons, beq_eq_false_iff_ne.2 h']
  · intro g hg
    simp only [List.mem_cons, List.not_mem_nil, or_false] at hg
    rcases hg with rfl | rfl
    · exact ⟨-1, -1, rfl, rfl, by norm_num⟩
    · exact ⟨-1, x, rfl, rfl, by norm_num; linarith⟩

/-! ## The sensing dot of the double dot -/

/-- `change_sensing_dot_gates`: with numbers, a call moves SDB1 and SDB2 by exactly the given
amounts, if both are at most 21 mV and both gates end at most 70 mV away from the pretuned
point; otherwise it fails and changes nothing.  No other channel is changed. -/
theorem sensing_dot_limits (pre v : Volts) (p1 p2 s1 s2 d1 d2 : ℝ) (hp1 : pre "SDB1" = some p1)
    (hp2 : pre "SDB2" = some p2) (hs1 : v "SDB1" = some s1) (hs2 : v "SDB2" = some s2) :
    ((|d1| ≤ 21e-3 ∧ |d2| ≤ 21e-3 ∧ |s1 + d1 - p1| ≤ 70e-3 ∧ |s2 + d2 - p2| ≤ 70e-3) →
      (changeSensingDot pre v (some d1) (some d2)).2 = .ok () ∧
      (changeSensingDot pre v (some d1) (some d2)).1 "SDB1" = some (s1 + d1) ∧
      (changeSensingDot pre v (some d1) (some d2)).1 "SDB2" = some (s2 + d2) ∧
      ∀ g, g ≠ "SDB1" → g ≠ "SDB2" →
        (changeSensingDot pre v (some d1) (some d2)).1 g = v g) ∧
    (¬ (|d1| ≤ 21e-3 ∧ |d2| ≤ 21e-3 ∧ |s1 + d1 - p1| ≤ 70e-3 ∧ |s2 + d2 - p2| ≤ 70e-3) →
      ∃ e, changeSensingDot pre v (some d1) (some d2) = (v, .error e)) := by
  have hgt : ∀ a b : ℝ, gtv (some a) (some b) ↔ b < a := by
    intro a b
    constructor
    · rintro ⟨x, y, hx, hy, h⟩
      cases hx; cases hy; exact h
    · exact fun h => ⟨a, b, rfl, rfl, h⟩
  have habs : ∀ a : ℝ, Val.abs (some a) = some |a| := fun _ => rfl
  unfold changeSensingDot
  rw [hs1, hs2, hp1, hp2]
  simp only [Val.add_some, Val.sub_some, habs, hgt]
  constructor
  · rintro ⟨h1, h2, h3, h4⟩
    rw [if_neg (not_lt.2 h1), if_neg (not_lt.2 h2), if_neg (not_lt.2 h3), if_neg (not_lt.2 h4)]
    refine ⟨rfl, ?_, ?_, ?_⟩
    · simp [smset]
    · simp [smset, hs2]
    · intro g hg1 hg2
      simp [smset, hg1, hg2]
  · intro h
    split
    · exact ⟨_, rfl⟩
    split
    · exact ⟨_, rfl⟩
    split
    · exact ⟨_, rfl⟩
    split
    · exact ⟨_, rfl⟩
    · rename_i h1 h2 h3 h4
      exact absurd ⟨not_lt.1 h1, not_lt.1 h2, not_lt.1 h3, not_lt.1 h4⟩ h

example : (|(0.01 : ℝ)| ≤ 21e-3 ∧ |(0 : ℝ)| ≤ 21e-3 ∧ |(-1 : ℝ) + 0.01 - (-1.05)| ≤ 70e-3 ∧
    |(-1 : ℝ) + 0 - (-1)| ≤ 70e-3) := by
  refine ⟨?_, ?_, ?_, ?_⟩ <;> rw [abs_le] <;> constructor <;> norm_num

/-- `retune_qpc` of gate SDB2, partial: a call that succeeds sets the gate to the chosen point
(number `idx` after the first 49 of 1280 points in an interval of 10 mV around the current voltage)
and at most 100 mV away from its pretuned voltage; a call that fails leaves it at its pretuned voltage.
Missing, because it is false (`retune_qpc_refuted`): other gates. -/
theorem retune_qpc_partial (pre v : Volts) (p : ℝ) (hp : pre "SDB2" = some p) (current : ℝ)
    (idx : ℕ) :
    ∃ x, (retuneQpc pre v "SDB2" current idx).1 "SDB2" = some x ∧ |x - p| ≤ 100e-3 ∧
      ((retuneQpc pre v "SDB2" current idx).2.isOk = false → x = p) ∧
      ((retuneQpc pre v "SDB2" current idx).2.isOk = true →
        x = (current - 5e-3) + ((idx : ℝ) + 49 - 1) * ((current + 5e-3) - (current - 5e-3)) / (1280 - 1)) := by
  unfold retuneQpc
  rw [hp]
  split
  · exact ⟨p, by simp [smset], by norm_num, fun _ => rfl, fun h => by cases h⟩
  · rename_i h
    refine ⟨qpcPosition current idx, by simp [smset], ?_, (fun h => by cases h), fun _ => by unfold qpcPosition; ring⟩
    by_contra hc
    exact h ⟨|qpcPosition current idx - p|, _, rfl, rfl, not_le.1 hc⟩

/-- `retune_qpc` of another gate is compared with the pretuned voltage of SDB2, and if it is
refused the gate is set to the pretuned voltage of SDB2, however far it is away from its
own. -/
theorem retune_qpc_refuted (pre v : Volts) (p1 p2 : ℝ) (_h1 : pre "SDB1" = some p1)
    (h2 : pre "SDB2" = some p2) (current : ℝ) (idx : ℕ)
    (h : 100e-3 < |qpcPosition current idx - p2|) :
    (retuneQpc pre v "SDB1" current idx).1 "SDB1" = some p2 := by
  unfold retuneQpc
  rw [h2, if_pos ⟨_, _, rfl, rfl, h⟩]
  simp [smset]

example : (100e-3 : ℝ) < |qpcPosition 0 640 - (-1)| := by
  rw [lt_abs]; left; unfold qpcPosition; norm_num

end Qtune.Matlab
