import Verif.Autotuner.SolverClassModel

/-!
# C181: every solver can be restarted and given a new target
-/

namespace Qtune.SolverClass

open Qtune.TargetOps

/-- The class is `NelderMeadSolver` or inherits from it, and no class in between gives the attribute a setter again. -/
inductive Frozen (name : Name) : Class → Prop
  | nelderMead : Frozen name .nelderMead
  | derived (body : Body) (base : Class) (h : body name = none) (hb : Frozen name base) : Frozen name (.derived body base)

/-- `NewtonSolver`, `ForwardingSolver` and classes of the user that inherit from them or from `Solver` without defining the attribute. -/
inductive Open (name : Name) : Class → Prop
  | solver : Open name .solver
  | newton : Open name .newton
  | forwarding : Open name .forwarding
  | derived (body : Body) (base : Class) (h : body name = none) (hb : Open name base) : Open name (.derived body base)

/-- After `restart` the solver is at the voltages `v`: each of its gates that the experiment knows has the voltage that the experiment
reports, each other gate the voltage it had; nothing else has changed. -/
def MovedTo (v : Series) (before after : Solver) : Prop :=
  after.cls = before.cls ∧ after.target = before.target ∧ after.position.index = before.position.index ∧
    ∀ g ∈ before.position.index, (g ∈ v.index → after.position.val g = v.val g) ∧
      (g ∉ v.index → after.position.val g = before.position.val g)

/-- The table after a change of one column: rows that are mentioned have the new entry, everything else is as it was. -/
def ColumnChanged (c : Column) (s : Series) (before after : Target) : Prop :=
  after.length = before.length ∧ ∀ (i : Nat) (h : i < before.length) (h' : i < after.length),
    (before[i].name ∈ s.index → after[i] = c.set (s.val before[i].name) before[i]) ∧
    (before[i].name ∉ s.index → after[i] = before[i])

/-- The table after all changes of columns, one after the other. -/
inductive TargetChanged : List (Column × Series) → Target → Target → Prop
  | none (T : Target) : TargetChanged [] T T
  | cons {c : Column} {s : Series} {cs : List (Column × Series)} {T U V : Target} (h : ColumnChanged c s T U)
      (ht : TargetChanged cs U V) : TargetChanged ((c, s) :: cs) T V

theorem frozen_find {name : Name} {c : Class} (h : Frozen name c) : find name c.bodies = some (.property false) := by
  induction h with
  | nelderMead => rfl
  | derived body base hb _ ih => simp [Class.bodies, find, hb, ih]

theorem open_find {name : Name} {c : Class} (h : Open name c) : find name c.bodies = some (.property true) := by
  induction h with
  | solver => rfl
  | newton => rfl
  | forwarding => rfl
  | derived body base hb _ ih => simp [Class.bodies, find, hb, ih]

theorem val_overwrite (s v : Series) (g : String) (hg : g ∈ s.index) :
    (overwrite s v).val g = if g ∈ v.index then v.val g else s.val g := by
  induction s with
  | nil => simp [Series.index] at hg
  | cons e s ih =>
    obtain ⟨a, x⟩ := e
    by_cases h : g = a
    · subst h
      simp only [overwrite, List.map_cons, Series.val, List.lookup_cons_self]
      by_cases hv : g ∈ v.index <;> simp [hv]
    · have hg' : g ∈ Series.index s := by
        simp [Series.index] at hg ⊢
        rcases hg with h1 | h1
        · exact absurd h1 h
        · exact h1
      have := ih hg'
      simp only [overwrite, Series.val, List.map_cons, List.lookup_cons, beq_eq_false_iff_ne.2 h] at this ⊢
      exact this

theorem movedTo_setPosition {v : Series} {s : Solver} (h : Open .currentPosition s.cls) :
    (setPosition v s).2 = .ok () ∧ MovedTo v s (setPosition v s).1 := by
  have hs : setPosition v s = ({ s with position := overwrite s.position v }, .ok ()) := by
    simp [setPosition, assign, open_find h]
  rw [hs]
  refine ⟨rfl, rfl, rfl, by simp [overwrite, Series.index, Function.comp_def], fun g hg => ?_⟩
  have := val_overwrite s.position v g hg
  exact ⟨fun hv => by simpa [hv] using this, fun hv => by simpa [hv] using this⟩

theorem columnChanged_of_ok {T U : Target} {c : Column} {s : Series} (h : changeColumn T c s = .ok U) : ColumnChanged c s T U := by
  unfold changeColumn at h
  split at h
  · cases h
    refine ⟨by simp, fun i hi hi' => ?_⟩
    refine ⟨fun hm => ?_, fun hm => ?_⟩ <;> simp [hm]
  · cases h

theorem targetChanged_of_ok : ∀ {cs : List (Column × Series)} {T : Target}, (changeTarget T cs).2 = .ok () →
    TargetChanged cs T (changeTarget T cs).1
  | [], T, _ => .none T
  | (c, s) :: cs, T, h => by
    unfold changeTarget at h ⊢
    split at h
    · cases h
    · rename_i U hU
      exact .cons (columnChanged_of_ok hU) (targetChanged_of_ok h)

theorem changeTarget_ok : ∀ {cs : List (Column × Series)} {T : Target},
    (∀ e ∈ cs, ∀ l ∈ e.2.index, l ∈ T.names) → (changeTarget T cs).2 = .ok ()
  | [], T, _ => rfl
  | (c, s) :: cs, T, h => by
    have hall : s.all (fun e => T.names.contains e.1) = true := by
      rw [List.all_eq_true]
      intro e he
      have := h (c, s) (by simp) e.1 (List.mem_map_of_mem he)
      simpa using this
    have hc : changeColumn T c s = .ok (T.map fun r => if s.index.contains r.name then c.set (s.val r.name) r else r) := by
      simp only [changeColumn]; rw [if_pos hall]
    have hn : Target.names (T.map fun r => if s.index.contains r.name then c.set (s.val r.name) r else r) = T.names := by
      simp only [Target.names, List.map_map]
      apply List.map_congr_left
      intro r _
      simp only [Function.comp]
      split
      · cases c <;> rfl
      · rfl
    unfold changeTarget
    rw [hc]
    exact changeTarget_ok (fun e he l hl => by rw [hn]; exact h e (by simp [he]) l hl)

/-- **C181**, restart.  If no solver of the hierarchy is a `NelderMeadSolver`, `Autotuner.restart` does not raise, and afterwards every solver is at
the voltages that the experiment reports. -/
theorem restart_moves_solvers_partial (v : Series) (a : Auto) (h : ∀ s ∈ a.solvers, Open .currentPosition s.cls) :
    (restart v a).2 = .ok () ∧ (restart v a).1.index = 0 ∧ (restart v a).1.pending = none ∧
      List.Forall₂ (MovedTo v) a.solvers (restart v a).1.solvers := by
  have key : ∀ ss : List Solver, (∀ s ∈ ss, Open .currentPosition s.cls) →
      (restartSolvers v ss).2 = .ok () ∧ List.Forall₂ (MovedTo v) ss (restartSolvers v ss).1 := by
    intro ss
    induction ss with
    | nil => intro _; exact ⟨rfl, .nil⟩
    | cons s ss ih =>
      intro h
      obtain ⟨h1, h2⟩ := movedTo_setPosition (v := v) (h s (by simp))
      obtain ⟨h3, h4⟩ := ih fun t ht => h t (by simp [ht])
      unfold restartSolvers
      rcases hs : setPosition v s with ⟨s', r⟩
      rw [hs] at h1 h2
      subst h1
      exact ⟨h3, .cons h2 h4⟩
  exact ⟨(key a.solvers h).1, rfl, rfl, (key a.solvers h).2⟩

/-- **C181**, new targets.  If none of the first solvers is a `NelderMeadSolver` and the changes mention only rows of their tables,
`Autotuner.change_targets` does not raise, the tables of these solvers are changed as requested and the others are not. -/
theorem change_targets_reaches_solvers_partial (cs : List (List (Column × Series))) (a : Auto) (hl : cs.length ≤ a.solvers.length)
    (h : ∀ s ∈ a.solvers.take cs.length, Open .target s.cls)
    (hn : List.Forall₂ (fun (c : List (Column × Series)) (s : Solver) => ∀ e ∈ c, ∀ l ∈ e.2.index, l ∈ s.target.names) cs
      (a.solvers.take cs.length)) :
    (changeTargets cs a).2 = .ok () ∧ (changeTargets cs a).1.index = 0 ∧ (changeTargets cs a).1.pending = none ∧
      (changeTargets cs a).1.solvers.length = a.solvers.length ∧
      ∀ (i : Nat) (hi : i < a.solvers.length) (hi' : i < (changeTargets cs a).1.solvers.length),
        ((changeTargets cs a).1.solvers[i]).position = a.solvers[i].position ∧
        (∀ hc : i < cs.length, TargetChanged cs[i] a.solvers[i].target ((changeTargets cs a).1.solvers[i]).target) ∧
        (cs.length ≤ i → (changeTargets cs a).1.solvers[i] = a.solvers[i]) := by
  have key : ∀ (cs : List (List (Column × Series))) (ss : List Solver), cs.length ≤ ss.length →
      (∀ s ∈ ss.take cs.length, Open .target s.cls) →
      List.Forall₂ (fun (c : List (Column × Series)) (s : Solver) => ∀ e ∈ c, ∀ l ∈ e.2.index, l ∈ s.target.names) cs
        (ss.take cs.length) →
      (retargetSolvers cs ss).2 = .ok () ∧ (retargetSolvers cs ss).1.length = ss.length ∧
      ∀ (i : Nat) (hi : i < ss.length) (hi' : i < (retargetSolvers cs ss).1.length),
        ((retargetSolvers cs ss).1[i]).position = ss[i].position ∧
        (∀ hc : i < cs.length, TargetChanged cs[i] ss[i].target ((retargetSolvers cs ss).1[i]).target) ∧
        (cs.length ≤ i → (retargetSolvers cs ss).1[i] = ss[i]) := by
    intro cs
    induction cs with
    | nil => intro ss _ _ _; exact ⟨rfl, rfl, fun i hi hi' => ⟨rfl, fun hc => absurd hc (by simp), fun _ => rfl⟩⟩
    | cons c cs ih =>
      intro ss hl h hn
      cases ss with
      | nil => simp at hl
      | cons s ss =>
        simp only [List.length_cons, List.take_succ_cons, List.forall₂_cons] at hl h hn
        obtain ⟨h1, h2, h3⟩ := ih ss (by omega) (fun t ht => h t (by simp [ht])) hn.2
        have ho : (changeTarget s.target c).2 = .ok () := changeTarget_ok hn.1
        have hs : setTarget c s = ({ s with target := (changeTarget s.target c).1 }, .ok ()) := by
          simp [setTarget, assign, open_find (h s (by simp)), ho]
        have hr : retargetSolvers (c :: cs) (s :: ss) =
            ({ s with target := (changeTarget s.target c).1 } :: (retargetSolvers cs ss).1, (retargetSolvers cs ss).2) := by
          rw [retargetSolvers, hs]
        rw [hr]
        refine ⟨h1, by simp [h2], fun i hi hi' => ?_⟩
        cases i with
        | zero => exact ⟨rfl, fun _ => targetChanged_of_ok ho, fun hc => absurd hc (by simp)⟩
        | succ i =>
          simp only [List.length_cons, Nat.add_lt_add_iff_right] at hi hi'
          obtain ⟨g1, g2, g3⟩ := h3 i hi hi'
          refine ⟨g1, fun hc => g2 (by simpa using hc), fun hc => g3 (by simpa using hc)⟩
  obtain ⟨k1, k2, k3⟩ := key cs a.solvers hl h hn
  have hch : changeTargets cs a = (⟨(retargetSolvers cs a.solvers).1, 0, none⟩, .ok ()) := by
    unfold changeTargets
    rw [if_neg (by omega)]
    rcases hs : retargetSolvers cs a.solvers with ⟨ss, r⟩
    rw [hs] at k1
    simp only at k1
    subst k1
    rfl
  rw [hch]
  exact ⟨rfl, rfl, rfl, k2, k3⟩

/-- **C181** fails for Nelder-Mead solvers.  As soon as one solver of the hierarchy is a `NelderMeadSolver` (or inherits its property), `restart`
raises `AttributeError`: the solvers before it have been moved, it and those behind it have not. -/
theorem restart_nelder_mead_refuted (v : Series) (a : Auto) (front back : List Solver) (s : Solver)
    (ha : a.solvers = front ++ s :: back) (hf : ∀ t ∈ front, Open .currentPosition t.cls) (hs : Frozen .currentPosition s.cls) :
    (restart v a).2 = .error .attributeError ∧ (restart v a).1.index = 0 ∧ (restart v a).1.pending = none ∧
      ∃ moved, List.Forall₂ (MovedTo v) front moved ∧ (restart v a).1.solvers = moved ++ s :: back := by
  have key : ∀ front : List Solver, (∀ t ∈ front, Open .currentPosition t.cls) →
      (restartSolvers v (front ++ s :: back)).2 = .error .attributeError ∧
      ∃ moved, List.Forall₂ (MovedTo v) front moved ∧ (restartSolvers v (front ++ s :: back)).1 = moved ++ s :: back := by
    intro front
    induction front with
    | nil =>
      intro _
      have : setPosition v s = (s, .error .attributeError) := by simp [setPosition, assign, frozen_find hs]
      refine ⟨?_, [], .nil, ?_⟩ <;> simp [restartSolvers, this]
    | cons t ts ih =>
      intro h
      obtain ⟨h1, h2⟩ := movedTo_setPosition (v := v) (h t (by simp))
      obtain ⟨h3, moved, h4, h5⟩ := ih fun u hu => h u (by simp [hu])
      rcases ht : setPosition v t with ⟨t', r⟩
      rw [ht] at h1 h2
      subst h1
      refine ⟨?_, t' :: moved, .cons h2 h4, ?_⟩ <;> simp [restartSolvers, ht, h3, h5]
  obtain ⟨k1, k2⟩ := key front hf
  refine ⟨by simp [restart, ha, k1], rfl, rfl, ?_⟩
  simpa [restart, ha] using k2

/-- **C181** fails for Nelder-Mead solvers.  `change_targets` with an entry for the tuner of a `NelderMeadSolver`, even an empty one, raises
`AttributeError`; the tables of the tuners before it are changed already, and the autotuner does not start over: it keeps its position in the hierarchy
and its pending voltages. -/
theorem change_targets_nelder_mead_refuted (cs : List (List (Column × Series))) (c : List (Column × Series)) (rest : List (List (Column × Series)))
    (a : Auto) (front back : List Solver) (s : Solver) (ha : a.solvers = front ++ s :: back) (hl : cs.length = front.length)
    (hr : rest.length ≤ back.length) (hf : ∀ t ∈ front, Open .target t.cls) (hs : Frozen .target s.cls)
    (hn : List.Forall₂ (fun (c : List (Column × Series)) (s : Solver) => ∀ e ∈ c, ∀ l ∈ e.2.index, l ∈ s.target.names) cs front) :
    (changeTargets (cs ++ c :: rest) a).2 = .error .attributeError ∧
      (changeTargets (cs ++ c :: rest) a).1.index = a.index ∧ (changeTargets (cs ++ c :: rest) a).1.pending = a.pending ∧
      ∃ changed : List Solver, (changeTargets (cs ++ c :: rest) a).1.solvers = changed ++ s :: back ∧
        changed.length = front.length ∧ ∀ (i : Nat) (hi : i < front.length) (hi' : i < changed.length) (hc : i < cs.length),
          TargetChanged cs[i] front[i].target changed[i].target := by
  have key : ∀ (front : List Solver) (cs : List (List (Column × Series))), (∀ t ∈ front, Open .target t.cls) →
      List.Forall₂ (fun (c : List (Column × Series)) (s : Solver) => ∀ e ∈ c, ∀ l ∈ e.2.index, l ∈ s.target.names) cs front →
      ∃ changed : List Solver, retargetSolvers (cs ++ c :: rest) (front ++ s :: back) = (changed ++ s :: back, .error .attributeError) ∧
        changed.length = front.length ∧ ∀ (i : Nat) (hi : i < front.length) (hi' : i < changed.length) (hc : i < cs.length),
          TargetChanged cs[i] front[i].target changed[i].target := by
    intro front
    induction front with
    | nil =>
      intro cs _ hn
      cases hn
      have : setTarget c s = (s, .error .attributeError) := by simp [setTarget, assign, frozen_find hs]
      exact ⟨[], by simp [retargetSolvers, this], rfl, fun i hi => absurd hi (by simp)⟩
    | cons t ts ih =>
      intro cs hf hn
      cases hn with
      | cons hn1 hn2 =>
        rename_i c0 cs0
        obtain ⟨changed, h1, h2, h3⟩ := ih cs0 (fun u hu => hf u (by simp [hu])) hn2
        have ho : (changeTarget t.target c0).2 = .ok () := changeTarget_ok hn1
        have ht : setTarget c0 t = ({ t with target := (changeTarget t.target c0).1 }, .ok ()) := by
          simp [setTarget, assign, open_find (hf t (by simp)), ho]
        refine ⟨{ t with target := (changeTarget t.target c0).1 } :: changed, ?_, by simp [h2], fun i hi hi' hc => ?_⟩
        · simp only [List.cons_append]
          rw [retargetSolvers, ht]
          simp [h1]
        · cases i with
          | zero => exact targetChanged_of_ok ho
          | succ i => exact h3 i (by simpa using hi) (by simpa using hi') (by simpa using hc)
  obtain ⟨changed, k1, k2, k3⟩ := key front cs hf hn
  have hch : changeTargets (cs ++ c :: rest) a = ({ a with solvers := changed ++ s :: back }, .error .attributeError) := by
    unfold changeTargets
    rw [if_neg (by simp [ha]; omega), ha, k1]
  rw [hch]
  exact ⟨rfl, rfl, rfl, changed, rfl, k2, k3⟩

/-- A double dot: a Newton solver for the tunnel couplings below a Nelder-Mead solver for the charge configuration. -/
def sampleAuto : Auto :=
  ⟨[⟨.newton, [("N", some 0), ("SB", some 1)], [⟨"tc", some 20, none, none, some 1, none, some 1⟩]⟩,
    ⟨.derived (fun _ => none) .nelderMead, [("RFA", some 2)], []⟩], 1, some [("N", some 5)]⟩

/-- `restart` and `change_targets` in this hierarchy. -/
example : (restart [("N", some 7)] sampleAuto).2 = .error .attributeError ∧
    (changeTargets [[(.desired, [("tc", some 30)])], []] sampleAuto).2 = .error .attributeError ∧
    (changeTargets [[(.desired, [("tc", some 30)])], []] sampleAuto).1.pending = some [("N", some 5)] := by
  have hf : Frozen .currentPosition (.derived (fun _ => none) .nelderMead) := .derived _ _ rfl .nelderMead
  have hf' : Frozen .target (.derived (fun _ => none) .nelderMead) := .derived _ _ rfl .nelderMead
  have h1 := restart_nelder_mead_refuted [("N", some 7)] sampleAuto [_] [] _ rfl
    (by intro t ht; simp only [List.mem_singleton] at ht; subst ht; exact .newton) hf
  have h2 := change_targets_nelder_mead_refuted [[(.desired, [("tc", some 30)])]] [] [] sampleAuto [_] [] _ rfl rfl (by simp)
    (by intro t ht; simp only [List.mem_singleton] at ht; subst ht; exact .newton) hf'
    (.cons (by intro e he l hl; simp at he; subst he; simpa [Target.names, Series.index] using hl) .nil)
  exact ⟨h1.1, h2.1, h2.2.2.1⟩

/-- The hypotheses of the two partial theorems hold if the upper solver is a `ForwardingSolver`. -/
example (s : Solver) (hs : s ∈ [(⟨.newton, [("N", some 0)], []⟩ : Solver), ⟨.derived (fun _ => none) .forwarding, [("RFA", some 2)], []⟩]) :
    Open .currentPosition s.cls ∧ Open .target s.cls := by
  simp only [List.mem_cons, List.not_mem_nil, or_false] at hs
  rcases hs with h | h <;> subst h
  · exact ⟨.newton, .newton⟩
  · exact ⟨.derived _ _ rfl .forwarding, .derived _ _ rfl .forwarding⟩

end Qtune.SolverClass
