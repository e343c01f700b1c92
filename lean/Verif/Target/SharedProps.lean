import Verif.Target.SharedSpec
import Verif.Target.PropsTable

/-! # C202: a new target concerns the tuner it is given to -/

namespace Qtune.TargetOps.Shared

open Qtune.TargetOps

theorem assign_other (h : Frames) {r r' : Nat} (c : List (Column × Series)) (hr : r' ≠ r) :
    (assign h r c).1 r' = h r' := by
  simp [assign, hr]

/-- Frames that no tuner holds stay as they are. -/
theorem assignEach_other (h : Frames) (refs : List Nat) (cs : List (List (Column × Series))) {r : Nat} (hr : r ∉ refs) :
    (assignEach h refs cs).1 r = h r := by
  induction cs generalizing h refs with
  | nil => cases refs <;> rfl
  | cons c cs ih =>
    cases refs with
    | nil => rfl
    | cons r' refs =>
      rw [List.mem_cons, not_or] at hr
      have h1 := assign_other h c hr.1
      rw [assignEach]
      rcases ha : assign h r' c with ⟨h', _ | ⟨⟨⟩⟩⟩
      · rw [ha] at h1; exact h1
      · rw [ha] at h1
        exact (ih h' refs hr.2).trans h1

theorem assignEach_own (h : Frames) (refs : List Nat) (hn : refs.Nodup) (cs : List (List (Column × Series))) :
    refs.map (assignEach h refs cs).1 = (changeEach (refs.map h) cs).1 ∧
      (assignEach h refs cs).2 = (changeEach (refs.map h) cs).2 := by
  induction cs generalizing h refs with
  | nil => cases refs <;> exact ⟨rfl, rfl⟩
  | cons c cs ih =>
    cases refs with
    | nil => exact ⟨rfl, rfl⟩
    | cons r refs =>
      rw [List.nodup_cons] at hn
      have hrest : refs.map (assign h r c).1 = refs.map h := by
        refine List.map_congr_left fun r' hr' => assign_other h c ?_
        rintro rfl
        exact hn.1 hr'
      have h0 : (assign h r c).1 r = (changeTarget (h r) c).1 := by simp [assign]
      have h2 : (assign h r c).2 = (changeTarget (h r) c).2 := rfl
      simp only [List.map_cons]
      rw [assignEach, changeEach]
      rcases ha : assign h r c with ⟨h', _ | ⟨⟨⟩⟩⟩
      · rw [ha] at h0 h2 hrest
        rcases hc : changeTarget (h r) c with ⟨T', res⟩
        rw [hc] at h0 h2
        simp only at h0 h2 hrest
        subst h2
        simp [h0, hrest]
      · rw [ha] at h0 h2 hrest
        rcases hc : changeTarget (h r) c with ⟨T', res⟩
        rw [hc] at h0 h2
        simp only at h0 h2 hrest
        subst h2
        have hr := assignEach_other h' refs cs hn.1
        have := ih h' refs hn.2
        rw [hrest] at this
        simp only [List.map_cons, hr, h0]
        exact ⟨by rw [this.1], this.2⟩

theorem step_own (h : Frames) (refs : List Nat) (hn : refs.Nodup) (op : Op) (hp : Private refs [op]) :
    refs.map (step refs h op).1 = (ownStep (refs.map h) op).1 ∧ (step refs h op).2 = (ownStep (refs.map h) op).2 := by
  cases op with
  | caller r T =>
    refine ⟨List.map_congr_left fun r' hr' => ?_, rfl⟩
    have : r' ≠ r := by
      rintro rfl
      exact hp r' T (by simp) hr'
    simp [step, this]
  | all cs =>
    simp only [step, ownStep, changeTargets, List.length_map]
    split
    · exact assignEach_own h refs hn cs
    · exact ⟨rfl, rfl⟩
  | tuner i c =>
    simp only [step, ownStep, List.getElem?_map]
    cases hi : refs[i]? with
    | none => exact ⟨rfl, rfl⟩
    | some r =>
      refine ⟨?_, rfl⟩
      obtain ⟨hlt, rfl⟩ := List.getElem?_eq_some_iff.1 hi
      refine List.ext_getElem (by simp) fun j h1 h2 => ?_
      have hj : j < refs.length := by simpa using h1
      simp only [Option.map_some, List.getElem_map, List.getElem_set]
      by_cases hij : i = j
      · subst hij
        simp [assign]
      · have : refs[j] ≠ refs[i] := fun he => hij ((hn.getElem_inj_iff.1 he).symm)
        simp [assign, this, hij]

/-- **C202**: if every solver has been constructed with a DataFrame of its own, which nobody else writes to, then after
all sequences of changes every tuner has the target that results from the changes that were given to it, and all calls
have the results that they have for these targets. -/
theorem own_targets_partial (h : Frames) (refs : List Nat) (hn : refs.Nodup) (ops : List Op) (hp : Private refs ops) :
    refs.map (run refs h ops).1 = (ownRun (refs.map h) ops).1 ∧ (run refs h ops).2 = (ownRun (refs.map h) ops).2 := by
  induction ops generalizing h with
  | nil => exact ⟨rfl, rfl⟩
  | cons op ops ih =>
    have h1 := step_own h refs hn op fun r T hr => hp r T (by
      rw [List.mem_singleton] at hr
      simp [hr])
    have h2 := ih (step refs h op).1 fun r T hr => hp r T (List.mem_cons_of_mem _ hr)
    rw [h1.1] at h2
    simp only [run, ownRun]
    exact ⟨h2.1, by rw [h2.2, h1.2]⟩

/-- **C202**: a change of tuner `i` leaves the targets of all tuners as they are that hold other DataFrames, and all
DataFrames that belong to nobody. -/
theorem other_targets_unchanged_partial (h : Frames) (refs : List Nat) (i : Nat) (c : List (Column × Series)) (r : Nat)
    (hr : refs[i]? ≠ some r) : (step refs h (.tuner i c)).1 r = h r := by
  simp only [step]
  cases hi : refs[i]? with
  | none => rfl
  | some r' =>
    refine assign_other h c ?_
    rintro rfl
    exact hr hi

/-- **C202** is false for solvers that were constructed with the same DataFrame: every change of one of their targets is
a change of the others. -/
theorem shared_target_refuted (h : Frames) (refs : List Nat) {i j r : Nat} (hi : refs[i]? = some r) (hj : refs[j]? = some r)
    (c : List (Column × Series)) :
    refs[j]?.map (step refs h (.tuner i c)).1 = some (changeTarget (h r) c).1 := by
  simp [step, hi, hj, assign]

/-- **C202**, `change_targets` for tuners with the same DataFrame: the changes for the second tuner are made to the
target of the first one, too. -/
theorem shared_change_targets_refuted (h : Frames) (r : Nat) (c c' : List (Column × Series)) (T : Target)
    (hc : changeTarget (h r) c = (T, .ok ())) :
    [r, r].map (step [r, r] h (.all [c, c'])).1 = [(changeTarget T c').1, (changeTarget T c').1] := by
  have h1 : assign h r c = (Function.update h r T, .ok ()) := by simp [assign, hc]
  simp only [step, List.length_cons, List.length_nil, le_refl, if_true, assignEach, h1, List.map_cons, List.map_nil]
  rcases h2 : assign (Function.update h r T) r c' with ⟨h', _ | ⟨⟨⟩⟩⟩ <;>
  · have h3 : h' = (assign (Function.update h r T) r c').1 := by rw [h2]
    subst h3
    simp [assign]

/-- **C202** is false for a DataFrame that the caller keeps: a change of the target of a tuner changes it, and a change
that the caller makes to it is a change of the target. -/
theorem kept_frame_refuted (h : Frames) (refs : List Nat) {i r : Nat} (hi : refs[i]? = some r)
    (c : List (Column × Series)) (T : Target) :
    (step refs h (.tuner i c)).1 r = (changeTarget (h r) c).1 ∧ refs[i]?.map (step refs h (.caller r T)).1 = some T := by
  constructor
  · simp [step, hi, assign]
  · simp [step, hi]

/-- The set point of one row is set to 5. -/
theorem sample_change : changeTarget [⟨"a", some 0, none, none, some 1, none, some 1⟩] [(.desired, [("a", some 5)])] =
    ([⟨"a", some 5, none, none, some 1, none, some 1⟩], .ok ()) := by
  simp [changeTarget, changeColumn, Target.names, Series.index, Series.val, List.lookup, Column.set]

/-- Two tuners with a DataFrame each and a third DataFrame of the caller. -/
example : [0, 1].Nodup ∧ Private [0, 1] [.tuner 0 [(.desired, [("a", some 5)])], .caller 2 [],
    .all [[], [(.tolerance, [("a", some 2)])]]] := by
  refine ⟨by decide, fun r T h => ?_⟩
  simp at h
  simp [h.1]

/-- With one DataFrame for both, the second tuner gets the set point of the first one. -/
example : [7, 7][1]?.map (step [7, 7] (fun _ => [⟨"a", some 0, none, none, some 1, none, some 1⟩])
    (.tuner 0 [(.desired, [("a", some 5)])])).1 = some [⟨"a", some 5, none, none, some 1, none, some 1⟩] := by
  rw [shared_target_refuted (r := 7) _ _ rfl rfl, sample_change]

end Qtune.TargetOps.Shared
