import Mathlib.Data.List.Basic
import Verif.Autotuner.ReloadModel

/-!
# C14, C103: construction and reloading of an autotuner
-/

namespace Qtune.Autotuner.Reload

variable {W V : Type}

/-- The states in which an autotuner can be: constructed, and after that anything may change
except that tuners lose their voltages or that the path becomes empty. -/
def Proper (s : Tuning W V) : Prop :=
  (∀ t ∈ s.tuners, t.lastVoltages ≠ none) ∧ s.storagePath ≠ some ""

/-- C103: after the construction of an autotuner all tuners have last voltages; a tuner that
had some keeps them, the others have the voltages read from the experiment; nothing else of
a tuner changes. -/
theorem construct_voltages (now : String) (read : V) (a : Args W V) :
    List.Forall₂ (fun (t t' : Tuner W V) => t'.rest = t.rest ∧
        t'.lastVoltages = some (t.lastVoltages.getD read))
      a.tuners (construct now read a).tuners := by
  unfold construct
  dsimp only
  induction a.tuners with
  | nil => exact .nil
  | cons t ts ih =>
    refine .cons ?_ ih
    obtain ⟨lv, rest⟩ := t
    cases lv <;> exact ⟨rfl, rfl⟩

example : (construct "now" 3 ({ tuners := [⟨none, 1⟩, ⟨some 5, 2⟩] } : Args Nat Nat)).tuners =
    [⟨some 3, 1⟩, ⟨some 5, 2⟩] := rfl

/-- C14, partial: reloading keeps the tuners, the index, the status, the pending voltages and
the name of the last file, and the whole autotuner if it has no storage path – for any
number of reloads.  Missing, because it is false (`reload_path_refuted`): the storage path. -/
theorem reload_partial (s : Tuning W V) (hs : Proper s) (times : List (String × V)) :
    (let s' := times.foldl (fun s t => reload t.1 t.2 s) s
     s'.tuners = s.tuners ∧ s'.index = s.index ∧ s'.status = s.status ∧
      s'.pending = s.pending ∧ s'.lastSaveFile = s.lastSaveFile ∧
      (s'.storagePath = none ↔ s.storagePath = none) ∧
      (s.storagePath = none → s' = s)) := by
  have one : ∀ (s : Tuning W V) (now : String) (read : V), (∀ t ∈ s.tuners, t.lastVoltages ≠ none) →
      (reload now read s).tuners = s.tuners := by
    intro s now read h
    show (s.tuners.map _) = s.tuners
    rw [List.map_congr_left (g := id), List.map_id]
    intro t ht
    obtain ⟨lv, rest⟩ := t
    cases lv with
    | none => exact absurd rfl (h _ ht)
    | some _ => rfl
  have key : ∀ (times : List (String × V)) (s : Tuning W V), Proper s →
      (let s' := times.foldl (fun s t => reload t.1 t.2 s) s
       s'.tuners = s.tuners ∧ s'.index = s.index ∧ s'.status = s.status ∧
        s'.pending = s.pending ∧ s'.lastSaveFile = s.lastSaveFile ∧
        (s'.storagePath = none ↔ s.storagePath = none) ∧
        (s.storagePath = none → s' = s)) := by
    intro times
    induction times with
    | nil => intro s _; exact ⟨rfl, rfl, rfl, rfl, rfl, Iff.rfl, fun _ => rfl⟩
    | cons t ts ih =>
      intro s hs
      have ht := one s t.1 t.2 hs.1
      have hpath : (reload t.1 t.2 s).storagePath = none ↔ s.storagePath = none := by
        cases hp : s.storagePath with
        | none => simp [reload, construct, toHdf5, hp]
        | some p =>
          have : p ≠ "" := fun h => hs.2 (by rw [hp, h])
          simp [reload, construct, toHdf5, hp, this]
      have hne : (reload t.1 t.2 s).storagePath ≠ some "" := by
        cases hp : s.storagePath with
        | none => simp [reload, construct, toHdf5, hp]
        | some p =>
          have hpe : p ≠ "" := fun h => hs.2 (by rw [hp, h])
          simp only [reload, construct, toHdf5, hp, if_neg hpe, if_true, ne_eq, Option.some.injEq]
          unfold join
          split
          · rename_i hb
            intro h; rw [h] at hb
            exact absurd hb (by decide)
          split
          · intro h
            exact hpe (String.append_eq_empty_iff.1 h).1
          · intro h
            exact hpe (String.append_eq_empty_iff.1 (String.append_eq_empty_iff.1 h).1).1
      have hP : Proper (reload t.1 t.2 s) := ⟨by rw [ht]; exact hs.1, hne⟩
      obtain ⟨h1, h2, h3, h4, h5, h6, h7⟩ := ih (reload t.1 t.2 s) hP
      refine ⟨h1.trans ht, h2, h3, h4, h5, h6.trans hpath, fun hn => ?_⟩
      have := h7 (hpath.2 hn)
      rw [List.foldl_cons]
      refine this.trans ?_
      obtain ⟨tu, i, st, pe, sp, ls⟩ := s
      dsimp only at hn
      subst hn
      have ht' : (reload t.1 t.2 ⟨tu, i, st, pe, none, ls⟩).tuners = tu := ht
      show (⟨_, _, _, _, _, _⟩ : Tuning W V) = _
      congr 1
  exact key times s hs

example : Proper (⟨[⟨some 1, 2⟩], 0, true, some 4, some "dir", none⟩ : Tuning Nat Nat) := by
  refine ⟨?_, by decide⟩
  intro t ht
  rw [List.mem_singleton.1 ht]
  simp

/-- C14 is false: every autotuner with a storage path has, after a reload, another path: the
time of the reload is appended as a further directory. -/
theorem reload_path_refuted (s : Tuning W V) (p : String) (hp : s.storagePath = some p)
    (hne : p ≠ "") (hsl : p.toList.getLast? ≠ some '/') (now : String) (hnow : now.toList.head? ≠ some '/')
    (read : V) :
    (reload now read s).storagePath = some (p ++ "/" ++ now) ∧
      (reload now read s).storagePath ≠ s.storagePath := by
  have h : (reload now read s).storagePath = some (p ++ "/" ++ now) := by
    simp only [reload, construct, toHdf5, hp, if_neg hne, if_true, Option.some.injEq]
    unfold join
    rw [if_neg hnow, if_neg]
    rintro (h | h)
    · exact hne h
    · exact hsl h
  refine ⟨h, ?_⟩
  rw [h, hp]
  intro he
  have := congrArg String.length (Option.some.inj he)
  rw [String.length_append, String.length_append] at this
  have h1 : "/".length = 1 := rfl
  omega

example : (reload "2026" 0 (⟨[], 0, false, none, some "dir", none⟩ : Tuning Nat Nat)).storagePath =
    some "dir/2026" :=
  (reload_path_refuted _ "dir" rfl (by decide) (by decide) "2026" (by decide) 0).1

end Qtune.Autotuner.Reload
