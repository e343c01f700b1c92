import Verif.Gui.ReloadModel
import Mathlib.Tactic.NormNum

/-!
# C139: reload windows

Specification first, then the theorems.
-/

namespace Qtune.Gui.Reload

open Qtune.Autotuner

variable {W X V P C : Type}

/-! ### Specification -/

/-- Sessions that started with the main window. -/
def Reachable (H : Hierarchy W X V P C) (volts : W → V) (s : Session W X V) : Prop :=
  ∃ a x rows as, s = run H volts (init a x rows) as

/-- The tuning goes on from the voltages `v`: the experiment has them, and the autotuner of the main window was restarted
with them, so that it will neither set other voltages nor go on with a later tuner. -/
def GoesOnFrom (H : Hierarchy W X V P C) (v : V) (s s' : Session W X V) : Prop :=
  H.read s'.expt = v ∧
    ∃ a, s.objects[s.current]? = some a ∧ s'.objects[s'.current]? = some ⟨(H.restartTuners v a.tuners).1, 0, a.status, none⟩

/-- No other window than `i` replaces the autotuner. -/
def OnlyWindow (i : Nat) (as : List Act) : Prop := ∀ j, Act.state j ∈ as → j = i

/-- The number of window `i` is typed. -/
def Typed (i : Nat) (as : List Act) : Prop := ∃ t, Act.edit i t ∈ as

/-! ### Invariants -/

/-- All windows and the main window have an autotuner. -/
structure Inv (s : Session W X V) : Prop where
  current : s.current < s.objects.length
  windows : ∀ (i : Nat) w, s.windows[i]? = some w → w.tuner < s.objects.length

theorem getElem?_modify_cases {A : Type} {l : List A} {f : A → A} {i j : Nat} {x : A} (h : (l.modify i f)[j]? = some x) :
    ∃ y, l[j]? = some y ∧ x = if i = j then f y else y := by
  rw [List.getElem?_modify] at h
  rcases hl : l[j]? with _ | y
  · rw [hl] at h; simp at h
  · rw [hl] at h
    exact ⟨y, rfl, (Option.some.inj h).symm⟩

theorem Inv.step {H : Hierarchy W X V P C} {volts : W → V} {s : Session W X V} (h : Inv s) (a : Act) :
    Inv (step H volts s a) := by
  cases a with
  | work =>
    show Inv (work H volts s)
    unfold work
    split
    · exact h
    · split
      · exact h
      · split
        · exact ⟨by simpa using h.current, fun i w hw => by simpa using h.windows i w hw⟩
        · exact ⟨by simpa using h.current, fun i w hw => by simpa using h.windows i w hw⟩
  | spawn =>
    refine ⟨h.current, fun i w hw => ?_⟩
    change (s.windows ++ [_])[i]? = some w at hw
    rw [List.getElem?_append] at hw
    split at hw
    · exact h.windows i w hw
    · generalize i - s.windows.length = k at hw
      rcases k with _ | k
      · simp only [List.getElem?_cons_zero, Option.some.injEq] at hw
        rw [← hw]; exact h.current
      · simp at hw
  | edit i t =>
    refine ⟨h.current, fun j w hw => ?_⟩
    obtain ⟨y, hy, hx⟩ := getElem?_modify_cases (show (s.windows.modify i _)[j]? = some w from hw)
    have := h.windows j y hy
    rw [hx]
    split <;> exact this
  | voltages i =>
    show Inv (voltages H i s)
    unfold voltages
    split
    · exact h
    · split
      · exact h
      · split
        · exact h
        · split
          · exact ⟨h.current, h.windows⟩
          · exact ⟨by simpa using h.current, fun j w hw => by simpa using h.windows j w hw⟩
  | state i =>
    show Inv (state H i s)
    unfold state
    split
    · exact h
    · split
      · exact h
      · rename_i row _
        have hwin : ∀ (j : Nat) v, (s.windows.modify i fun w => ⟨s.objects.length, w.number, w.shown⟩)[j]? = some v →
            v.tuner < (s.objects ++ [(restart H (row.2.load s.expt)).1.snapshot]).length := by
          intro j v hv
          obtain ⟨y, hy, hx⟩ := getElem?_modify_cases hv
          have := h.windows j y hy
          rw [hx]
          simp only [List.length_append, List.length_singleton]
          split
          · show s.objects.length < _; omega
          · omega
        dsimp only
        split
        · refine ⟨?_, hwin⟩
          have := h.current
          simp only [List.length_append, List.length_singleton]; omega
        · refine ⟨?_, hwin⟩
          simp

theorem Inv.run {H : Hierarchy W X V P C} {volts : W → V} : ∀ (as : List Act) {s : Session W X V}, Inv s → Inv (run H volts s as)
  | [], _, h => h
  | a :: as, s, h => Inv.run as (s := Reload.step H volts s a) (h.step a)

theorem inv_init (a : Snapshot W V) (x : X) (rows : List (V × Snapshot W V)) : Inv (init a x rows) :=
  ⟨by simp [init], fun i w hw => by simp [init] at hw⟩

theorem Reachable.inv {H : Hierarchy W X V P C} {volts : W → V} {s : Session W X V} (h : Reachable H volts s) : Inv s := by
  obtain ⟨a, x, rows, as, rfl⟩ := h
  exact (inv_init a x rows).run as

/-- Window `i` has the autotuner of the main window; `typed`: it acts on the number that it shows. -/
def Follows (i : Nat) (typed : Prop) (s : Session W X V) : Prop :=
  ∃ w, s.windows[i]? = some w ∧ w.tuner = s.current ∧ (typed → w.shown = w.number)

theorem Follows.step {H : Hierarchy W X V P C} (hre : ∀ v w, (H.restartTuners v w).2 = .ok ()) {volts : W → V} {i : Nat}
    {typed : Prop} {s : Session W X V} (h : Follows i typed s) (a : Act) (ha : ∀ j, a = .state j → j = i) :
    Follows i (typed ∨ ∃ t, a = .edit i t) (Reload.step H volts s a) := by
  obtain ⟨w, h1, h2, h3⟩ := h
  have hno : ∀ {a : Act}, (∀ t, a ≠ .edit i t) → ((typed ∨ ∃ t, a = .edit i t) → w.shown = w.number) := by
    intro a hne hh
    rcases hh with hh | ⟨t, rfl⟩
    · exact h3 hh
    · exact absurd rfl (hne t)
  cases a with
  | work =>
    show Follows i _ (work H volts s)
    refine ⟨w, ?_, ?_, hno (by simp)⟩
    · unfold work
      split
      · exact h1
      · split
        · exact h1
        · split <;> exact h1
    · unfold work
      split
      · exact h2
      · split
        · exact h2
        · split <;> exact h2
  | spawn =>
    refine ⟨w, ?_, h2, hno (by simp)⟩
    show (s.windows ++ [_])[i]? = some w
    rw [List.getElem?_append_left]
    · exact h1
    · exact (List.getElem?_eq_some_iff.1 h1).1
  | edit j t =>
    by_cases hj : j = i
    · subst hj
      refine ⟨⟨w.tuner, clampNumber t s.rows.length, clampNumber t s.rows.length⟩, ?_, h2, fun _ => rfl⟩
      show (s.windows.modify j _)[j]? = _
      rw [List.getElem?_modify, h1]
      simp
    · refine ⟨w, ?_, h2, hno (by simp [hj])⟩
      show (s.windows.modify j _)[i]? = _
      rw [List.getElem?_modify, h1]
      simp [hj]
  | voltages j =>
    show Follows i _ (voltages H j s)
    refine ⟨w, ?_, ?_, hno (by simp)⟩
    · unfold voltages
      split
      · exact h1
      · split
        · exact h1
        · split
          · exact h1
          · split <;> exact h1
    · unfold voltages
      split
      · exact h2
      · split
        · exact h2
        · split
          · exact h2
          · split <;> exact h2
  | state j =>
    cases ha j rfl
    show Follows i _ (state H i s)
    unfold state
    split
    · exact ⟨w, h1, h2, hno (by simp)⟩
    · split
      · exact ⟨w, h1, h2, hno (by simp)⟩
      · rename_i row _
        have hr : (restart H (row.2.load s.expt)).2.2 = .ok () := hre _ _
        dsimp only
        rw [hr]
        refine ⟨⟨s.objects.length, w.number, w.shown⟩, ?_, rfl, hno (by simp)⟩
        show (s.windows.modify i _)[i]? = _
        rw [List.getElem?_modify, h1]
        simp

theorem Follows.run {H : Hierarchy W X V P C} (hre : ∀ v w, (H.restartTuners v w).2 = .ok ()) {volts : W → V} {i : Nat} :
    ∀ (as : List Act) {typed : Prop} {s : Session W X V}, Follows i typed s → OnlyWindow i as →
      Follows i (typed ∨ Typed i as) (Reload.run H volts s as)
  | [], typed, s, h, _ => by
    obtain ⟨w, h1, h2, h3⟩ := h
    exact ⟨w, h1, h2, fun hh => hh.elim h3 fun ⟨t, ht⟩ => by simp at ht⟩
  | a :: as, typed, s, h, ho => by
    have h1 := h.step hre (volts := volts) a fun j hj => ho j (by simp [hj])
    obtain ⟨w, h2, h3, h4⟩ := Follows.run hre as h1 fun j hj => ho j (by simp [hj])
    refine ⟨w, h2, h3, fun hh => h4 ?_⟩
    rcases hh with hh | ⟨t, ht⟩
    · exact .inl (.inl hh)
    · rcases List.mem_cons.1 ht with ht | ht
      · exact .inl (.inr ⟨t, ht.symm⟩)
      · exact .inr ⟨t, ht⟩

theorem pyGet_nat {A : Type} (l : List A) (k : Nat) : pyGet l (k : Int) = l[k]? := by simp [pyGet]

/-! ### Theorems -/

/-- **C139**, part: a reload window that was opened at any time in any session, after anything was done except
that *another* window reloaded a state, and after a number was typed: if it shows the number `k` and row `k` exists, 'Reload
Voltages' sets its voltages and restarts the autotuner of the main window with them (unless the experiment refuses). -/
theorem reload_voltages_partial (H : Hierarchy W X V P C) (volts : W → V)
    (hset : ∀ v x, (H.setVolt v x).2 = .ok () → H.read (H.setVolt v x).1 = v)
    (hre : ∀ v w, (H.restartTuners v w).2 = .ok ()) {s₁ : Session W X V} (h₁ : Reachable H volts s₁) (as : List Act)
    (honly : OnlyWindow s₁.windows.length as) (htyped : Typed s₁.windows.length as) :
    ∃ w, (run H volts (spawn s₁) as).windows[s₁.windows.length]? = some w ∧
      ∀ (k : Nat) row, w.shown = k → (run H volts (spawn s₁) as).rows[k]? = some row →
        (H.setVolt row.1 (run H volts (spawn s₁) as).expt).2 = .ok () →
        GoesOnFrom H row.1 (run H volts (spawn s₁) as) (voltages H s₁.windows.length (run H volts (spawn s₁) as)) := by
  have hinv : Inv (run H volts (spawn s₁) as) := (h₁.inv.step (H := H) (volts := volts) .spawn).run as
  have hf : Follows s₁.windows.length False (spawn s₁) := ⟨⟨s₁.current, 0, 1⟩, by simp [spawn], rfl, False.elim⟩
  obtain ⟨w, h1, h2, h3⟩ := hf.run hre (volts := volts) as honly
  generalize run H volts (spawn s₁) as = s at hinv h1 h2 ⊢
  refine ⟨w, h1, fun k row hk hrow hok => ?_⟩
  have hnum : w.number = k := by rw [← h3 (.inr htyped), hk]
  obtain ⟨a, ha⟩ : ∃ a, s.objects[s.current]? = some a := ⟨_, List.getElem?_eq_getElem hinv.current⟩
  rcases hx : H.setVolt row.1 s.expt with ⟨x, r⟩
  rw [hx] at hok
  dsimp only at hok
  subst hok
  have hread : H.read x = row.1 := by have := hset row.1 s.expt; rw [hx] at this; exact this rfl
  have hv : voltages H s₁.windows.length s =
      { s with expt := x, objects := s.objects.set w.tuner (restart H (a.load x)).1.snapshot } := by
    unfold voltages
    rw [h1]
    dsimp only
    rw [hnum, pyGet_nat, hrow]
    dsimp only
    rw [h2, ha]
    dsimp only
    rw [hx]
  rw [hv]
  refine ⟨hread, a, ha, ?_⟩
  show (s.objects.set w.tuner _)[s.current]? = _
  rw [h2, List.getElem?_set_self hinv.current, ← hread]
  rfl

/-- **C139**, part: 'Reload Entire State' in a window with a typed number makes the main window go on with the autotuner in
the file of the row that is shown, restarted with the present voltages. -/
theorem reload_state_partial (H : Hierarchy W X V P C) (volts : W → V)
    (hre : ∀ v w, (H.restartTuners v w).2 = .ok ()) {s₁ : Session W X V} (as : List Act)
    (honly : OnlyWindow s₁.windows.length as) (htyped : Typed s₁.windows.length as) :
    ∃ w, (run H volts (spawn s₁) as).windows[s₁.windows.length]? = some w ∧
      ∀ (k : Nat) row, w.shown = k → (run H volts (spawn s₁) as).rows[k]? = some row →
        let s' := state H s₁.windows.length (run H volts (spawn s₁) as)
        s'.expt = (run H volts (spawn s₁) as).expt ∧
        s'.objects[s'.current]? = some ⟨(H.restartTuners (H.read s'.expt) row.2.tuners).1, 0, row.2.status, none⟩ := by
  have hf : Follows s₁.windows.length False (spawn s₁) := ⟨⟨s₁.current, 0, 1⟩, by simp [spawn], rfl, False.elim⟩
  obtain ⟨w, h1, h2, h3⟩ := hf.run hre (volts := volts) as honly
  generalize run H volts (spawn s₁) as = s at h1 h2 ⊢
  refine ⟨w, h1, fun k row hk hrow => ?_⟩
  have hnum : w.number = k := by rw [← h3 (.inr htyped), hk]
  have hr : (restart H (row.2.load s.expt)).2.2 = .ok () := hre _ _
  have hv : state H s₁.windows.length s =
      { s with
        objects := s.objects ++ [(restart H (row.2.load s.expt)).1.snapshot]
        windows := s.windows.modify s₁.windows.length fun w => ⟨s.objects.length, w.number, w.shown⟩
        current := s.objects.length } := by
    unfold state
    rw [h1]
    dsimp only
    rw [hnum, pyGet_nat, hrow]
    dsimp only
    rw [hr]
  rw [hv]
  refine ⟨rfl, ?_⟩
  simp only [List.getElem?_concat_length]
  rfl

/-- **C139**, part: after a number was typed the window shows the number of a row, the typed one if there is such a row. -/
theorem typed_number_has_row (i : Nat) (t : Option Int) (s : Session W X V) (hne : s.rows ≠ []) {w : Window}
    (hw : s.windows[i]? = some w) :
    ∃ w', (edit i t s).windows[i]? = some w' ∧ (∃ k : Nat, w'.shown = k ∧ k < s.rows.length) ∧
      ∀ k : Nat, t = some (k : Int) → k < s.rows.length → w'.shown = k := by
  have hlen : 0 < s.rows.length := List.length_pos_iff.2 hne
  refine ⟨⟨w.tuner, clampNumber t s.rows.length, clampNumber t s.rows.length⟩, ?_, ?_, ?_⟩
  · show (s.windows.modify i _)[i]? = _
    rw [List.getElem?_modify, hw]
    simp
  · refine ⟨(clampNumber t s.rows.length).toNat, ?_, ?_⟩
    · show clampNumber t s.rows.length = _
      unfold clampNumber
      split
      · rfl
      · split <;> omega
    · unfold clampNumber
      split
      · simpa using hlen
      · split <;> omega
  · intro k hk hlt
    show clampNumber t s.rows.length = _
    unfold clampNumber
    rw [hk]
    simp only [Option.getD_some]
    rw [if_neg (by omega), if_neg (by omega)]

/-- **C139** is refuted for a window whose number was not typed: it shows 1, but its button sets the voltages of row 0,
in every session. -/
theorem new_window_refuted (H : Hierarchy W X V P C) (volts : W → V)
    (hset : ∀ v x, (H.setVolt v x).2 = .ok () → H.read (H.setVolt v x).1 = v) {s : Session W X V} (h : Reachable H volts s)
    (row : V × Snapshot W V) (hrow : s.rows[0]? = some row) (hok : (H.setVolt row.1 s.expt).2 = .ok ()) :
    ∃ w, (spawn s).windows[s.windows.length]? = some w ∧ w.shown = 1 ∧
      H.read (voltages H s.windows.length (spawn s)).expt = row.1 := by
  refine ⟨⟨s.current, 0, 1⟩, by simp [spawn], rfl, ?_⟩
  obtain ⟨a, ha⟩ : ∃ a, s.objects[s.current]? = some a := ⟨_, List.getElem?_eq_getElem h.inv.current⟩
  rcases hx : H.setVolt row.1 s.expt with ⟨x, r⟩
  rw [hx] at hok
  dsimp only at hok
  subst hok
  have hread : H.read x = row.1 := by have := hset row.1 s.expt; rw [hx] at this; exact this rfl
  have h0 : pyGet s.rows 0 = some row := by rw [← hrow]; exact pyGet_nat s.rows 0
  have hw : (spawn s).windows[s.windows.length]? = some ⟨s.current, 0, 1⟩ := by simp [spawn]
  unfold voltages
  rw [hw]
  show H.read (match pyGet s.rows 0 with
    | none => spawn s
    | some row => _).expt = _
  rw [h0]
  show H.read (match s.objects[s.current]? with
    | none => spawn s
    | some a => _).expt = _
  rw [ha]
  show H.read (match H.setVolt row.1 s.expt with
    | (x, .error _) => _
    | (x, .ok ()) => _ : Session W X V).expt = _
  rw [hx]
  exact hread

/-- After window `j` has reloaded a state all other windows have an abandoned autotuner. -/
theorem others_abandoned (H : Hierarchy W X V P C) (volts : W → V) (hre : ∀ v w, (H.restartTuners v w).2 = .ok ())
    {s : Session W X V} (h : Reachable H volts s) {i j : Nat} (hij : i ≠ j) {w wj : Window} (hw : s.windows[i]? = some w)
    (hwj : s.windows[j]? = some wj) {row : V × Snapshot W V} (hrow : pyGet s.rows wj.number = some row) :
    (state H j s).windows[i]? = some w ∧ w.tuner ≠ (state H j s).current := by
  have hr : (restart H (row.2.load s.expt)).2.2 = .ok () := hre _ _
  have hv : state H j s =
      { s with
        objects := s.objects ++ [(restart H (row.2.load s.expt)).1.snapshot]
        windows := s.windows.modify j fun w => ⟨s.objects.length, w.number, w.shown⟩
        current := s.objects.length } := by
    unfold state
    rw [hwj]
    dsimp only
    rw [hrow]
    dsimp only
    rw [hr]
  rw [hv]
  refine ⟨?_, ?_⟩
  · show (s.windows.modify j _)[i]? = _
    rw [List.getElem?_modify, hw]
    simp [Ne.symm hij]
  · exact ne_of_lt (h.inv.windows i w hw)

/-- **C139** is refuted for a window with an abandoned autotuner (`others_abandoned`): if the autotuner of the main window is
about to set voltages, it is not restarted by 'Reload Voltages' and overwrites the voltages that were reloaded. -/
theorem abandoned_window_refuted (H : Hierarchy W X V P C) (volts : W → V)
    (hset : ∀ v x, (H.setVolt v x).2 = .ok () → H.read (H.setVolt v x).1 = v) (s : Session W X V) (i : Nat) {w : Window}
    (hw : s.windows[i]? = some w) (hne : w.tuner ≠ s.current) {a : Snapshot W V} (ha : s.objects[s.current]? = some a) {v : V}
    (hp : a.pending = some v) (hidx : a.index ≠ H.len) (hnan : H.hasNaN v = false)
    (hready : ∀ x, H.ready a.tuners x (some v) = .ok true) (hok : ∀ x, (H.setVolt v x).2 = .ok ()) :
    H.read (work H volts (voltages H i s)).expt = v := by
  have h1 : (voltages H i s).objects[(voltages H i s).current]? = some a := by
    unfold voltages
    split
    · exact ha
    · rename_i w' hw'
      rw [hw] at hw'
      cases hw'
      split
      · exact ha
      · split
        · exact ha
        · split
          · exact ha
          · show (s.objects.set w.tuner _)[s.current]? = _
            rw [List.getElem?_set_ne hne]
            exact ha
  generalize voltages H i s = t at h1
  rcases hx : H.setVolt v t.expt with ⟨x, r⟩
  have hok' := hok t.expt
  rw [hx] at hok'
  dsimp only at hok'
  subst hok'
  have hread : H.read x = v := by have := hset v t.expt; rw [hx] at this; exact this rfl
  have hit : iterate H (.ok ()) (a.load t.expt) =
      finish (.ok ()) { a.load t.expt with expt := x, index := 0, pending := none } (.wrote v (.ok ())) := by
    unfold iterate
    have hc : isComplete H (a.load t.expt) = false := by simp [isComplete, Snapshot.load, hidx]
    rw [show (a.load t.expt).pending = some v from hp, show (a.load t.expt).tuners = a.tuners from rfl, hready, hc]
    dsimp only
    rw [hnan, show (a.load t.expt).expt = t.expt from rfl, hx]
    rfl
  have hc : isComplete H (a.load t.expt) = false := by simp [isComplete, Snapshot.load, hidx]
  unfold work
  rw [h1]
  dsimp only
  rw [hc, hit]
  exact hread

/-! ### Examples -/

/-- A hierarchy of one tuner that always asks for 7 volts. -/
def toyReload : Hierarchy Int Int Int Unit Unit where
  len := 1
  ready := fun _ _ _ => .ok true
  read := id
  hasNaN := fun _ => false
  setVolt := fun v _ => (v, .ok ())
  isTuned := fun _ v _ x => ((v, x), .ok false)
  nextVolt := fun _ _ w => (w, .ok 7)
  tunedParams := fun _ _ => ()
  restartTuners := fun v _ => (v, .ok ())
  nChanges := fun _ => 0
  applyTargets := fun _ w => (w, .ok ())

/-- A session with two rows. -/
def toySession : Session Int Int Int := init ⟨6, 0, false, none⟩ 6 [(5, ⟨5, 0, false, none⟩), (6, ⟨6, 0, false, none⟩)]

example : ∃ w, (run toyReload id (spawn toySession) [.work, .edit 0 (some 0)]).windows[0]? = some w ∧
    ∀ (k : Nat) row, w.shown = (k : Int) → (run toyReload id (spawn toySession) [.work, .edit 0 (some 0)]).rows[k]? = some row →
      (toyReload.setVolt row.1 (run toyReload id (spawn toySession) [.work, .edit 0 (some 0)]).expt).2 = .ok () →
      GoesOnFrom toyReload row.1 (run toyReload id (spawn toySession) [.work, .edit 0 (some 0)])
        (voltages toyReload 0 (run toyReload id (spawn toySession) [.work, .edit 0 (some 0)])) :=
  reload_voltages_partial toyReload id (fun _ _ _ => rfl) (fun _ _ => rfl) (s₁ := toySession) ⟨_, _, _, [], rfl⟩
    [.work, .edit 0 (some 0)] (fun j hj => by simp at hj) ⟨some 0, by simp [toySession, init]⟩

/-- The window shows 1, and the voltages of row 1 are 6, but 5 is set. -/
example : toyReload.read (voltages toyReload 0 (spawn toySession)).expt = 5 := rfl

/-- Two windows show row 0; the first one reloads the state, the worker evaluates and calculates the next voltages, the
second one reloads the voltages 5, and the worker sets 7. -/
example : (voltages toyReload 1 (run toyReload id toySession
      [.spawn, .spawn, .edit 0 (some 0), .edit 1 (some 0), .state 0, .work, .work])).expt = 5 ∧
    (work toyReload id (voltages toyReload 1 (run toyReload id toySession
      [.spawn, .spawn, .edit 0 (some 0), .edit 1 (some 0), .state 0, .work, .work]))).expt = 7 := by
  constructor
  · simp [run, step, toySession, init, spawn, edit, state, work, voltages, toyReload, clampNumber, pyGet, restart, Snapshot.load,
      State.snapshot, isComplete, iterate, finish]
  · simp [run, step, toySession, init, spawn, edit, state, work, voltages, toyReload, clampNumber, pyGet, restart, Snapshot.load,
      State.snapshot, isComplete, iterate, finish]

end Qtune.Gui.Reload
