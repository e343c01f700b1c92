import Verif.Autotuner.LogModel
import Verif.EndToEnd.HierarchyModel
import Verif.EndToEnd.LeadRun
import Verif.Tuner.Props

/-! # Log messages do not change the tuning (C170) -/

namespace Qtune.Autotuner

variable {W X V P C : Type}

/-! ## Specification -/

/-- The calls without the messages: the model of `Autotuner.Model`, with what each call returned. -/
def outcomes (H : Hierarchy W X V P C) : State W X V → List (Op X C) → List (Except PyErr Unit)
  | _, [] => []
  | s, op :: ops => (step H s op).2.2 :: outcomes H (step H s op).1 ops

/-- What is known of the tuners and the experiment, whose gates are `all`: `is_tuned` stores the voltages it gets (parameter_tuner.py:228,
337); `restart` does so, or keeps the labels (parameter_tuner.py:105-111); nothing else changes the last voltages; pending voltages have known
gates (autotuner.py:168-169). -/
structure KeepsGates (H : Hierarchy W X V P C) (J : Journal W V) (all : List String) : Prop where
  read : ∀ x, J.gates (H.read x) = all
  ready : ∀ w x v, H.ready w x (some v) = .ok true → ∀ g ∈ J.gates v, g ∈ all
  tuned : ∀ v w x w' x' b, H.isTuned 0 v w x = ((w', x'), .ok b) → J.first w' = some (J.gates v)
  other : ∀ i v w x, J.first (H.isTuned i v w x).1.1 = J.first w ∨ J.first (H.isTuned i v w x).1.1 = some (J.gates v)
  next : ∀ i p w, J.first (H.nextVolt i p w).1 = J.first w
  restart : ∀ v w, J.first w ≠ none → J.first (H.restartTuners v w).1 = J.first w ∨
    J.first (H.restartTuners v w).1 = some (J.gates v)
  targets : ∀ c w, J.first (H.applyTargets c w).1 = J.first w

/-- A value is known for at least one parameter of tuner `i`, if all its parameters have set points (and it has parameters). -/
def Journal.Shown (J : Journal W V) (i : Nat) (w : W) : Prop :=
  (∀ r ∈ J.target i w, r.desired ≠ none) → J.target i w ≠ [] →
    ∃ l ∈ (J.target i w).names, l ∈ (J.values i w).index

/-- No call changes for which parameters values are known so that `Shown` is lost. -/
structure KeepsShown (H : Hierarchy W X V P C) (J : Journal W V) : Prop where
  tuned : ∀ i v w x, (∀ j, J.Shown j w) → ∀ j, J.Shown j (H.isTuned i v w x).1.1
  next : ∀ i p w, (∀ j, J.Shown j w) → ∀ j, J.Shown j (H.nextVolt i p w).1
  restart : ∀ v w, (∀ j, J.Shown j w) → ∀ j, J.Shown j (H.restartTuners v w).1
  targets : ∀ c w, (∀ j, J.Shown j w) → ∀ j, J.Shown j (H.applyTargets c w).1

/-! ## Proofs -/

theorem distance_ok {J : Journal W V} {i : Nat} {w : W} (h : J.Shown i w) : J.distance i w = .ok () := by
  unfold Journal.distance
  split
  · rename_i hd
    have hd' : ∀ r ∈ J.target i w, r.desired ≠ none := by
      intro r hr
      have := List.all_eq_true.1 hd r hr
      intro h0; rw [h0] at this; cases this
    by_cases hT : J.target i w = []
    · rw [hT]; rfl
    · obtain ⟨l, hl, hv⟩ := h hd' hT
      have : ∃ t, (J.values i w).select (J.target i w).names = .ok t := by
        unfold Series.select
        rw [if_neg]
        · exact ⟨_, rfl⟩
        · rintro ⟨-, h2⟩
          have h3 := List.all_eq_true.1 h2 l hl
          obtain ⟨p, hp, rfl⟩ := List.mem_map.1 hv
          rw [Option.isNone_iff_eq_none, List.lookup_eq_none_iff] at h3
          have := h3 p hp
          simp at this
      obtain ⟨t, ht⟩ := this
      rw [ht]
  · rfl

theorem change_ok {J : Journal W V} {w : W} {v : V} {all : List String} (h1 : J.first w = some all)
    (h2 : ∀ g ∈ J.gates v, g ∈ all) : J.change w v = .ok () := by
  unfold Journal.change
  rw [h1]
  dsimp only
  rw [if_neg]
  rintro ⟨h3, h4⟩
  obtain ⟨g, hg⟩ := List.exists_mem_of_ne_nil _ h3
  have := List.all_eq_true.1 h4 g hg
  simp [h2 g hg] at this

/-- Invariant: as soon as anything has been evaluated, the first tuner knows the voltages of all gates. -/
structure Known (J : Journal W V) (all : List String) (s : State W X V) : Prop where
  first : (0 < s.index ∨ s.status = true ∨ s.pending ≠ none) → J.first s.tuners = some all
  shown : ∀ i, J.Shown i s.tuners

theorem iterate_logged {H : Hierarchy W X V P C} {J : Journal W V} {all : List String} (hg : KeepsGates H J all) (save : Except PyErr Unit)
    {s : State W X V} (h : Known J all s) (hs : KeepsShown H J) : iterateLogged H J save s = iterate H save s := by
  unfold iterateLogged iterate
  cases hr : H.ready s.tuners s.expt s.pending with
  | error e => rfl
  | ok b =>
    cases b with
    | false => rfl
    | true =>
      dsimp only
      split
      · rfl
      · cases hp : s.pending with
        | some v =>
          dsimp only
          split
          · rfl
          · rw [change_ok (h.first (.inr (.inr (by rw [hp]; simp)))) (hg.ready _ _ _ (hp ▸ hr))]
            dsimp only
            rcases H.setVolt v s.expt with ⟨x, e | u⟩ <;> rfl
        | none =>
          dsimp only
          split
          · rfl
          · split
            · have hsh := hs.tuned s.index (H.read s.expt) s.tuners s.expt h.shown s.index
              rcases ht : H.isTuned s.index (H.read s.expt) s.tuners s.expt with ⟨⟨w, x⟩, _ | b⟩
              · rfl
              · rw [ht] at hsh
                cases b
                · dsimp only
                  rw [distance_ok hsh]
                · rfl
            · rfl

theorem finish_state (save : Except PyErr Unit) (s : State W X V) (e : Event W V P) : (finish save s e).1 = s := by
  unfold finish
  split <;> rfl

theorem iterate_known {H : Hierarchy W X V P C} {J : Journal W V} {all : List String} (hg : KeepsGates H J all) (hs : KeepsShown H J)
    (save : Except PyErr Unit) {s : State W X V} (h : Known J all s) : Known J all (iterate H save s).1 := by
  unfold iterate
  cases hr : H.ready s.tuners s.expt s.pending with
  | error e => exact h
  | ok b =>
    cases b with
    | false => exact h
    | true =>
      dsimp only
      split
      · exact h
      · cases hp : s.pending with
        | some v =>
          have h1 := h.first (.inr (.inr (by rw [hp]; simp)))
          dsimp only
          split
          · exact h
          · rcases H.setVolt v s.expt with ⟨x, e | u⟩
            · exact ⟨fun _ => h1, h.shown⟩
            · dsimp only
              rw [finish_state]
              exact ⟨fun _ => h1, h.shown⟩
        | none =>
          dsimp only
          split
          · exact h
          · split
            · rename_i hst
              have hsh := hs.tuned s.index (H.read s.expt) s.tuners s.expt h.shown
              have ho := hg.other s.index (H.read s.expt) s.tuners s.expt
              have h0 := fun w' x' b => hg.tuned (H.read s.expt) s.tuners s.expt w' x' b
              have hfirst : ∀ w x b, H.isTuned s.index (H.read s.expt) s.tuners s.expt = ((w, x), .ok b) → J.first w = some all := by
                intro w x b ht
                rcases Nat.eq_zero_or_pos s.index with hz | hz
                · rw [hz] at ht
                  rw [h0 w x b ht, hg.read]
                · rw [ht] at ho
                  rcases ho with ho | ho
                  · exact ho.trans (h.first (.inl hz))
                  · rw [ho, hg.read]
              rcases ht : H.isTuned s.index (H.read s.expt) s.tuners s.expt with ⟨⟨w, x⟩, e | b⟩
              · rw [ht] at hsh ho
                dsimp only
                refine ⟨fun hh => ?_, hsh⟩
                rcases ho with ho | ho
                · refine ho.trans (h.first ?_)
                  rw [hp]
                  exact hh
                · exact ho.trans (by rw [hg.read])
              · rw [ht] at hsh
                cases b <;> (dsimp only; rw [finish_state]; exact ⟨fun _ => hfirst _ _ _ ht, hsh⟩)
            · rename_i hst
              have h1 := h.first (.inr (.inl (by simpa using hst)))
              have hn := hg.next s.index (H.tunedParams s.tuners s.index) s.tuners
              have hsh := hs.next s.index (H.tunedParams s.tuners s.index) s.tuners h.shown
              rcases ht : H.nextVolt s.index (H.tunedParams s.tuners s.index) s.tuners with ⟨w, e | v⟩
              · rw [ht] at hn hsh
                exact ⟨fun _ => hn.trans h1, hsh⟩
              · rw [ht] at hn hsh
                dsimp only
                rw [finish_state]
                exact ⟨fun _ => hn.trans h1, hsh⟩

theorem step_known {H : Hierarchy W X V P C} {J : Journal W V} {all : List String} (hg : KeepsGates H J all) (hs : KeepsShown H J)
    {s : State W X V} (h : Known J all s) (op : Op X C) : Known J all (step H s op).1 := by
  cases op with
  | iterate save => exact iterate_known hg hs save h
  | manual x => exact ⟨h.first, h.shown⟩
  | restart =>
    refine ⟨fun hh => ?_, hs.restart _ _ h.shown⟩
    have h1 : J.first s.tuners = some all := by
      refine h.first (.inr (.inl ?_))
      rcases hh with hh | hh | hh
      · exact absurd hh (lt_irrefl 0)
      · exact hh
      · exact absurd rfl hh
    rcases hg.restart (H.read s.expt) s.tuners (by rw [h1]; simp) with h2 | h2
    · exact h2.trans h1
    · exact h2.trans (by rw [hg.read])
  | changeTargets c =>
    dsimp only [step]
    unfold changeTargets
    have hsh := hs.targets c s.tuners h.shown
    have ht := hg.targets c s.tuners
    split
    · exact h
    · rcases hc : H.applyTargets c s.tuners with ⟨w, e | u⟩
      · rw [hc] at hsh ht
        exact ⟨fun hh => ht.trans (h.first hh), hsh⟩
      · rw [hc] at hsh ht
        refine ⟨fun hh => ht.trans (h.first (.inr (.inl ?_))), hsh⟩
        rcases hh with hh | hh | hh
        · exact absurd hh (lt_irrefl 0)
        · exact hh
        · exact absurd rfl hh

/-- **C170**: for every program of calls of a new autotuner, whatever raises in between: with the log messages it does the same, step by step, and
returns or raises the same as without them; if for each tuner, all parameters of which have set points, the value of one is known. -/
theorem log_is_silent_partial {H : Hierarchy W X V P C} {J : Journal W V} {all : List String} (hg : KeepsGates H J all) (hs : KeepsShown H J)
    (w : W) (x : X) (hw : ∀ i, J.Shown i w) (ops : List (Op X C)) :
    runLogged H J (fresh w x) ops = ((run H (fresh w x) ops).1, (run H (fresh w x) ops).2, outcomes H (fresh w x) ops) := by
  have key : ∀ (ops : List (Op X C)) (s : State W X V), Known J all s →
      runLogged H J s ops = ((run H s ops).1, (run H s ops).2, outcomes H s ops) := by
    intro ops
    induction ops with
    | nil => intro s _; rfl
    | cons op ops ih =>
      intro s h
      have e : stepLogged H J s op = step H s op := by
        cases op with
        | iterate save => exact iterate_logged hg save h hs
        | restart => rfl
        | changeTargets c => rfl
        | manual x => rfl
      have := ih _ (step_known hg hs h op)
      simp only [runLogged, run, outcomes]
      rw [e, this]
  refine key ops _ ⟨fun hh => ?_, hw⟩
  rcases hh with hh | hh | hh
  · exact absurd hh (lt_irrefl 0)
  · cases hh
  · exact absurd rfl hh

/-- **C170** is false for autotuners that are created with voltages to set: if the first tuner was created with last voltages of other gates, `iterate`
raises `KeyError` before it sets the voltages, and nothing changes, however often it is called; without the message it would set them. -/
theorem log_keeps_voltages_from_being_set_refuted (H : Hierarchy W X V P C) (J : Journal W V) (w : W) (x : X) (i : Nat) (v : V) (l : List String)
    (hi : i < H.len) (hr : H.ready w x (some v) = .ok true) (hn : H.hasNaN v = false) (hl : J.first w = some l)
    (hv : J.gates v ≠ []) (hd : ∀ g ∈ J.gates v, g ∉ l) (k : Nat) (save : Except PyErr Unit) :
    runLogged H J ⟨w, x, i, false, some v⟩ (List.replicate k (.iterate save)) =
      (⟨w, x, i, false, some v⟩, [], List.replicate k (.error .keyError)) ∧
    ∃ r, (iterate H save ⟨w, x, i, false, some v⟩).2.1.head? = some (.wrote v r) := by
  have hc : isComplete H (⟨w, x, i, false, some v⟩ : State W X V) = false := by
    simp [isComplete]; omega
  have hch : J.change w v = .error .keyError := by
    unfold Journal.change
    rw [hl]
    dsimp only
    rw [if_pos]
    exact ⟨hv, List.all_eq_true.2 fun g hg => by simp [hd g hg]⟩
  have e1 : iterateLogged H J save ⟨w, x, i, false, some v⟩ = (⟨w, x, i, false, some v⟩, [], .error .keyError) := by
    unfold iterateLogged
    simp [hr, hc, hn, hch]
  constructor
  · induction k with
    | zero => rfl
    | succ k ih =>
      rw [List.replicate_succ]
      simp only [runLogged, stepLogged]
      rw [e1, ih]
      simp [List.replicate_succ]
  · unfold iterate
    simp only [hr, hc, hn]
    rcases H.setVolt v x with ⟨x', e | u⟩
    · exact ⟨_, rfl⟩
    · dsimp only [finish]
      cases save <;> exact ⟨_, rfl⟩

/-! ## Hierarchies of `SubsetTuner`s -/

section Subset

open _root_.Qtune.Tuner EndToEnd

variable {E : Type} {n : Nat}

/-- The messages of a hierarchy of `SubsetTuner`s; all voltages are those of the gates `gate 0, …, gate (n - 1)`.
autotuner.py:260-266, 281-285. -/
def subsetJournal (gate : Fin n → String) : Journal (Shared E n) (Volt (Fin n)) where
  gates := fun _ => List.ofFn gate
  first := fun _ => some (List.ofFn gate)
  target := fun i w => (w.tuners i).solver.target
  values := fun i w => (w.tuners i).lastValues

/-- Each tuner is as its constructor made it: the values are looked up for the parameters with entries in all columns that are used at all
(parameter_tuner.py:62-65), and there is such a parameter. -/
def Created (w : Shared E n) : Prop :=
  ∀ i, (w.tuners i).lastValues.index = (w.tuners i).solver.target.relevant ∧
    ((w.tuners i).solver.target ≠ [] → (w.tuners i).solver.target.relevant ≠ [])

theorem tuned_keeps (I : Newton.EstI E (Fin n)) (lstsq : Newton.Lstsq (Fin n)) (outs : List Outcome) (v : Volt (Fin n)) (t : OneTuner E n) :
    (isTuned (Newton.solver I lstsq) outs v t).1.solver.target = t.solver.target ∧
    (isTuned (Newton.solver I lstsq) outs v t).1.lastValues.index = t.lastValues.index :=
  ⟨(isTuned_same_target (Newton.solver I lstsq) (fun _ _ => rfl) (fun v p q s => update_same_target I v p q s) outs v t).1,
    lastValues_index_invariant _ outs v t⟩

theorem next_keeps (I : Newton.EstI E (Fin n)) (lstsq : Newton.Lstsq (Fin n)) (p : List String) (t : OneTuner E n) :
    (nextVoltages (Newton.solver I lstsq) p t).1.solver.target = t.solver.target ∧
    (nextVoltages (Newton.solver I lstsq) p t).1.lastValues = t.lastValues := by
  refine ⟨nextVoltages_same_target (Newton.solver I lstsq) (fun p s => suggest_same_target I lstsq p s) p t, ?_⟩
  unfold nextVoltages
  split
  · split <;> rfl
  · split
    · rfl
    · dsimp only
      split <;> rfl

theorem shown_put (gate : Fin n → String) (w : Shared E n) (i : Nat) (t : OneTuner E n) (h1 : t.solver.target = (w.tuners i).solver.target)
    (h2 : t.lastValues.index = (w.tuners i).lastValues.index) (h : ∀ j, (subsetJournal gate).Shown j w) :
    ∀ j, (subsetJournal gate).Shown j (w.put i t) := by
  intro j
  by_cases hj : j = i
  · subst hj
    have := h j
    simp only [Journal.Shown, subsetJournal, Shared.put, Function.update_self] at this ⊢
    rw [h1, h2]
    exact this
  · have := h j
    simp only [Journal.Shown, subsetJournal, Shared.put, Function.update_of_ne hj] at this ⊢
    exact this

theorem subset_keeps (I : Newton.EstI E (Fin n)) (lstsq : Newton.Lstsq (Fin n)) (K : Nat) (outs : Nat → Volt (Fin n) → List Outcome)
    (gate : Fin n → String) : KeepsGates (multiHierarchy I lstsq K outs) (subsetJournal gate) (List.ofFn gate) ∧
      KeepsShown (multiHierarchy I lstsq K outs) (subsetJournal gate) := by
  refine ⟨⟨fun _ => rfl, fun _ _ _ _ g hg => hg, fun _ _ _ _ _ _ _ => rfl, fun _ _ _ _ => .inl rfl, fun _ _ _ => rfl, fun _ _ _ => .inl rfl,
    fun _ _ => rfl⟩, ⟨fun i v w x h => ?_, fun i p w h => ?_, fun _ _ h => h, fun _ _ h => h⟩⟩
  · exact shown_put gate w i _ (tuned_keeps I lstsq (outs i x) v (w.get i)).1 (tuned_keeps I lstsq (outs i x) v (w.get i)).2 h
  · exact shown_put gate w i _ (next_keeps I lstsq p (w.get i)).1 (by rw [(next_keeps I lstsq p (w.get i)).2]; rfl) h

/-- **C170** for hierarchies of any number of `SubsetTuner`s with Newton solvers and shared estimators of any kind, whatever their evaluators return or raise: the messages
change nothing, if in each target there is a parameter with entries in all columns that are used. -/
theorem log_is_silent_subset_partial (I : Newton.EstI E (Fin n)) (lstsq : Newton.Lstsq (Fin n)) (K : Nat) (outs : Nat → Volt (Fin n) → List Outcome)
    (gate : Fin n → String) (w : Shared E n) (x : Volt (Fin n)) (hw : Created w) (ops : List (Op (Volt (Fin n)) Unit)) :
    let H := multiHierarchy I lstsq K outs
    runLogged H (subsetJournal gate) (fresh w x) ops = ((run H (fresh w x) ops).1, (run H (fresh w x) ops).2, outcomes H (fresh w x) ops) := by
  obtain ⟨h1, h2⟩ := subset_keeps I lstsq K outs gate
  refine log_is_silent_partial h1 h2 w x (fun i _ hT => ?_) ops
  obtain ⟨l, hl⟩ := List.exists_mem_of_ne_nil _ ((hw i).2 hT)
  refine ⟨l, ?_, ?_⟩
  · obtain ⟨r, hr, rfl⟩ := List.mem_map.1 hl
    exact List.mem_map.2 ⟨r, List.mem_of_mem_filter hr, rfl⟩
  · change l ∈ (w.tuners i).lastValues.index
    rw [(hw i).1]
    exact hl

/-- **C170** is false for a `SubsetTuner` in whose target all parameters have set points, but none has entries in all columns that are used: whenever
the evaluation says "not tuned", `iterate` raises `KeyError` and the state is not saved, whatever the device, the estimators and the solver are. -/
theorem log_of_distance_refuted (I : Newton.EstI E (Fin n)) (lstsq : Newton.Lstsq (Fin n)) (K : Nat) (outs : Nat → Volt (Fin n) → List Outcome)
    (gate : Fin n → String) (w : Shared E n) (x : Volt (Fin n)) (i : Nat) (hi : i < K) (save : Except PyErr Unit)
    (hv : (w.tuners i).lastValues.index = (w.tuners i).solver.target.relevant) (hT : (w.tuners i).solver.target ≠ [])
    (hd : ∀ r ∈ (w.tuners i).solver.target, r.desired ≠ none) (hrel : (w.tuners i).solver.target.relevant = [])
    (w' : Shared E n) (hno : (multiHierarchy I lstsq K outs).isTuned i x w x = ((w', x), .ok false)) :
    iterateLogged (multiHierarchy I lstsq K outs) (subsetJournal gate) save ⟨w, x, i, false, none⟩ =
      (⟨w', x, i, true, none⟩, [.evaluated i x (.ok false)], .error .keyError) ∧
    (iterate (multiHierarchy I lstsq K outs) (.ok ()) ⟨w, x, i, false, none⟩).2.2 = .ok () := by
  have hc : isComplete (multiHierarchy I lstsq K outs) (⟨w, x, i, false, none⟩ : State (Shared E n) (Volt (Fin n)) (Volt (Fin n))) = false := by
    simp only [isComplete, beq_eq_false_iff_ne]
    change i ≠ K
    omega
  have hlen : ¬ (multiHierarchy I lstsq K outs).len ≤ i := by change ¬ K ≤ i; omega
  have hready : ∀ v, (multiHierarchy I lstsq K outs).ready w x v = .ok true := fun _ => rfl
  have hread : (multiHierarchy I lstsq K outs).read x = x := rfl
  have hw' : (w'.tuners i).solver.target = (w.tuners i).solver.target ∧ (w'.tuners i).lastValues.index = (w.tuners i).lastValues.index := by
    have e : w' = w.put i (isTuned (Newton.solver I lstsq) (outs i x) x (w.get i)).1 := by
      have := congrArg (fun r => r.1.1) hno
      exact this.symm
    have h := tuned_keeps I lstsq (outs i x) x (w.get i)
    rw [e]
    simp only [Shared.put, Function.update_self]
    exact h
  have hdist : (subsetJournal gate).distance i w' = .error .keyError := by
    have ht : (subsetJournal gate).target i w' = (w.tuners i).solver.target := hw'.1
    have hl : (subsetJournal gate).values i w' = (w'.tuners i).lastValues := rfl
    unfold Journal.distance
    rw [ht, hl, if_pos (List.all_eq_true.2 fun r hr => Option.isSome_iff_ne_none.2 (hd r hr))]
    have hnil : (w'.tuners i).lastValues = [] := by
      have := hw'.2.trans (hv.trans hrel)
      simpa [Series.index] using this
    have : (w'.tuners i).lastValues.select (w.tuners i).solver.target.names = .error .keyError := by
      unfold Series.select
      rw [hnil, if_pos]
      refine ⟨fun h => hT (by simpa [Target.names] using h), List.all_eq_true.2 fun _ _ => rfl⟩
    rw [this]
  constructor
  · unfold iterateLogged
    simp only [hready, hc, hread, hlen, hno, hdist, Bool.false_eq_true, if_false, if_true]
  · unfold iterate
    simp only [hready, hc, hread, hlen, hno, finish, Bool.false_eq_true, if_false, if_true]

/-! ## Cases -/

/-- Two parameters with set points and tolerances: both have entries in all columns that are used. -/
example : Target.relevant [⟨"a", some 1, none, none, some 1, none, some 1⟩, ⟨"b", some 2, none, none, some 1, none, some 1⟩] = ["a", "b"] := by
  simp [Target.relevant, Target.columns, Target.names]

/-- The first parameter has a tolerance, the second a minimum: none has entries in all columns that are used, though both have set points. -/
example : Target.relevant [⟨"a", some 1, none, none, some 1, none, some 1⟩, ⟨"b", some 2, some 0, none, none, none, some 1⟩] = [] := by
  simp [Target.relevant, Target.columns, Target.names]

end Subset

/-- One tuner, of which only the gates of its last voltages are modelled; it is never tuned and always suggests the voltages of gate `b`. -/
def oneLabel : Hierarchy (Option (List String)) Unit (List String) Unit Unit where
  len := 1
  ready := fun _ _ p => .ok (match p with | none => true | some l => l.all fun g => ["a", "b"].contains g)
  read := fun _ => ["a", "b"]
  hasNaN := fun _ => false
  setVolt := fun _ x => (x, .ok ())
  isTuned := fun _ v _ x => ((some v, x), .ok false)
  nextVolt := fun _ _ w => (w, .ok ["b"])
  tunedParams := fun _ _ => ()
  restartTuners := fun v w => (match w with | none => some v | some [] => some v | some l => some l, .ok ())
  nChanges := fun _ => 0
  applyTargets := fun _ w => (w, .ok ())

/-- What its messages read. -/
def oneJournal : Journal (Option (List String)) (List String) := ⟨id, id, fun _ _ => [], fun _ _ => []⟩

/-- The hypotheses of `log_is_silent_partial` are met, whatever the tuner was created with. -/
example : KeepsGates oneLabel oneJournal ["a", "b"] ∧ KeepsShown oneLabel oneJournal ∧ ∀ w i, oneJournal.Shown i w := by
  refine ⟨⟨fun _ => rfl, fun _ _ v h g hg => ?_, fun _ _ _ _ _ _ h => by cases h; rfl, fun _ _ _ _ => .inr rfl, fun _ _ _ => rfl,
    fun v w _ => ?_, fun _ _ => rfl⟩, ⟨fun _ _ _ _ _ _ _ h => absurd rfl h, fun _ _ _ _ _ _ h => absurd rfl h, fun _ _ _ _ _ h => absurd rfl h,
    fun _ _ _ _ _ h => absurd rfl h⟩, fun _ _ _ h => absurd rfl h⟩
  · have h1 : v.all (fun g => ["a", "b"].contains g) = true := by
      have := Except.ok.inj h
      exact this
    have := List.all_eq_true.1 h1 g hg
    simpa using this
  · rcases w with _ | _ | ⟨a, l⟩
    · exact .inr rfl
    · exact .inr rfl
    · exact .inl rfl

/-- Created with last voltages of gate `a` and with voltages of gate `b` to set, the autotuner meets the hypotheses of the refutation. -/
example : oneLabel.ready (some ["a"]) () (some ["b"]) = .ok true ∧ oneJournal.first (some ["a"]) = some ["a"] ∧
    oneJournal.gates ["b"] ≠ [] ∧ ∀ g ∈ oneJournal.gates ["b"], g ∉ ["a"] := by
  refine ⟨rfl, rfl, by simp [oneJournal], by simp [oneJournal]⟩

end Qtune.Autotuner
