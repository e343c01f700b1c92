import Verif.EndToEnd.RetrySpec
import Verif.EndToEnd.Cycles

namespace Qtune.EndToEnd

open Qtune.Tuner Qtune.Autotuner

variable {X : Type} {n : Nat}

theorem isTuned_lastVoltage {S ι : Type} (I : SolverI S ι) (outs : List Outcome) (v u : Volt ι)
    (t : SubsetTuner S ι) : isTuned I outs v { t with lastVoltage := u } = isTuned I outs v t := rfl

/-- An evaluator raises: nothing changes but the remembered voltages. -/
theorem collect_fails : ∀ (l : List Outcome) (k : Nat) (e : PyErr),
    ∃ e', collect (l.take k ++ [.error e]) = .error e'
  | [], k, e => ⟨e, by simp [collect]⟩
  | a :: l, 0, e => ⟨e, by simp [collect]⟩
  | .error e' :: l, k + 1, e => ⟨e', by simp [collect]⟩
  | .ok (p, v) :: l, k + 1, e => by
    obtain ⟨e', h⟩ := collect_fails l k e
    exact ⟨e', by simp [collect, h]⟩

theorem isTuned_raises {S ι : Type} (I : SolverI S ι) (l : List Outcome) (k : Nat) (e : PyErr) (v : Volt ι)
    (t : SubsetTuner S ι) (hq : t.queued = 0) :
    ∃ e', isTuned I (l.take k ++ [.error e]) v t = ({ t with lastVoltage := v }, .error e') := by
  obtain ⟨e', h⟩ := collect_fails l k e
  refine ⟨e', ?_⟩
  simp [isTuned, hq, evaluate, h]

theorem isTuned_queued {S ι : Type} (I : SolverI S ι) (l l' : List Outcome) (v : Volt ι)
    (t : SubsetTuner S ι) (hq : t.queued ≠ 0) : isTuned I l v t = isTuned I l' v t := by
  simp [isTuned, hq]

theorem finish_state {W X V P : Type} (save : Except PyErr Unit) (s : State W X V) (e : Event W V P) :
    (finish save s e).1 = s := by
  rcases save with e' | ⟨⟨⟩⟩ <;> rfl

theorem iterate_state_save {W X V P C : Type} (H : Hierarchy W X V P C) (save save' : Except PyErr Unit)
    (s : State W X V) : (iterate H save s).1 = (iterate H save' s).1 := by
  unfold iterate
  split
  · rfl
  · rfl
  · split
    · rfl
    · split
      · split
        · rfl
        · split <;> simp only [finish_state]
      · split
        · rfl
        · split
          · split <;> simp only [finish_state]
          · split <;> simp only [finish_state]

theorem get_put {w : Shared X n} {i : Nat} (t : OneTuner X n) (j : Nat) :
    (w.put i t).get j =
      if j = i then t else { w.get j with solver := { (w.get j).solver with ests := t.solver.ests } } := by
  by_cases h : j = i
  · subst h
    simp [Shared.get, Shared.put]
  · simp [Shared.get, Shared.put, h]

theorem put_same {w w' : Shared X n} (h : ∀ i, ∃ v, w.get i = { w'.get i with lastVoltage := v }) (i : Nat)
    (t : OneTuner X n) :
    (w.put i t).ests = (w'.put i t).ests ∧
    (∀ j, ∃ v, (w.put i t).get j = { (w'.put i t).get j with lastVoltage := v }) ∧
    (w.put i t).get i = (w'.put i t).get i := by
  refine ⟨rfl, fun j => ?_, by simp [get_put]⟩
  rw [get_put, get_put]
  by_cases hj : j = i
  · rw [if_pos hj, if_pos hj]
    exact ⟨_, rfl⟩
  · rw [if_neg hj, if_neg hj]
    obtain ⟨v, hv⟩ := h j
    exact ⟨v, by rw [hv]⟩

theorem Same.rfl' (a : Autotuner.State (Shared X n) (Volt (Fin n)) (Volt (Fin n))) : Same a a :=
  ⟨rfl, rfl, rfl, rfl, fun i => ⟨(a.tuners.get i).lastVoltage, rfl⟩, fun _ => rfl, fun _ => rfl⟩

theorem Same.trans {a b c : Autotuner.State (Shared X n) (Volt (Fin n)) (Volt (Fin n))} (h : Same a b)
    (h' : Same b c) : Same a c where
  index := h.index.trans h'.index
  status := h.status.trans h'.status
  pending := h.pending.trans h'.pending
  ests := h.ests.trans h'.ests
  tuner := fun i => by
    obtain ⟨v, hv⟩ := h.tuner i
    obtain ⟨u, hu⟩ := h'.tuner i
    exact ⟨v, by rw [hv, hu]⟩
  suggesting := fun hs => (h.suggesting hs).trans (by
    rw [h.index]; exact h'.suggesting (h.status ▸ hs))
  gates := fun hp => (h.gates hp).trans (h'.gates (h.pending ▸ hp))

/-- A call with a fault is interrupted, or reaches the state that it reaches without fault. -/
theorem interrupted_or_not (I : Newton.EstI X (Fin n)) (lstsq : Newton.Lstsq (Fin n)) (K : Nat)
    (outs : Nat → Volt (Fin n) → List Outcome) (f : Fault n)
    (s : Autotuner.State (Shared X n) (Volt (Fin n)) (Volt (Fin n))) :
    (f.mild = false ∧ (∃ e, (faultyCall I lstsq K outs f s).2.2 = .error e) ∧
      Same (faultyCall I lstsq K outs f s).1 s) ∨
    (faultyCall I lstsq K outs f s).1 = (iterate (multiHierarchy I lstsq K outs) (.ok ()) s).1 ∧
      (f.saving = .ok () →
        (faultyCall I lstsq K outs f s).2.2 = (iterate (multiHierarchy I lstsq K outs) (.ok ()) s).2.2) := by
  obtain ⟨w, x, i, st, p⟩ := s
  cases f with
  | none => exact .inr ⟨rfl, fun _ => rfl⟩
  | save e =>
    right
    refine ⟨?_, fun h => by simp [Fault.saving] at h⟩
    exact iterate_state_save (multiHierarchy I lstsq K outs) _ _ _
  | write e y =>
    by_cases hc : isComplete (multiHierarchy I lstsq K outs) ⟨w, x, i, st, p⟩ = true
    · right
      simp_all [faultyCall, iterate, faultyHierarchy, multiHierarchy, Fault.outs, Fault.setVolt, Fault.saving, isComplete]
    · cases p with
      | none => exact .inr ⟨rfl, fun _ => rfl⟩
      | some v =>
        by_cases hv : (multiHierarchy I lstsq K outs).hasNaN v = true
        · right
          simp_all [faultyCall, iterate, faultyHierarchy, multiHierarchy, Fault.outs, Fault.setVolt, Fault.saving, isComplete]
        · left
          have : faultyCall I lstsq K outs (.write e y) ⟨w, x, i, st, some v⟩ =
              (⟨w, y, i, st, some v⟩, [.wrote v (.error e)], .error e) := by
            simp_all [faultyCall, iterate, faultyHierarchy, multiHierarchy, Fault.outs, Fault.setVolt, Fault.saving, isComplete]
          rw [this]
          exact ⟨rfl, ⟨e, rfl⟩, ⟨rfl, rfl, rfl, rfl, fun i => ⟨_, rfl⟩, fun _ => rfl, (fun h => by cases h)⟩⟩
  | evaluator k e =>
    cases p with
    | some v => exact .inr ⟨rfl, fun _ => rfl⟩
    | none =>
      cases st with
      | true => exact .inr ⟨rfl, fun _ => rfl⟩
      | false =>
        by_cases hc : i = K
        · right
          simp_all [faultyCall, iterate, faultyHierarchy, multiHierarchy, Fault.outs, Fault.setVolt, Fault.saving, isComplete]
        · by_cases hi : K ≤ i
          · right
            simp_all [faultyCall, iterate, faultyHierarchy, multiHierarchy, Fault.outs, Fault.setVolt, Fault.saving, isComplete]
          · by_cases hq : (w.tuners i).queued = 0
            · left
              obtain ⟨e', he⟩ := isTuned_raises (Newton.solver I lstsq) (outs i x) k e x (w.get i) hq
              have : faultyCall I lstsq K outs (.evaluator k e) ⟨w, x, i, false, none⟩ =
                  (⟨w.put i { w.get i with lastVoltage := x }, x, i, false, none⟩,
                    [.evaluated i x (.error e')], .error e') := by
                simp_all [faultyCall, iterate, faultyHierarchy, multiHierarchy, Fault.outs, Fault.setVolt, Fault.saving, isComplete]
              rw [this]
              refine ⟨rfl, ⟨e', rfl⟩, ⟨rfl, rfl, rfl, rfl, fun j => ?_, (fun h => by cases h), fun _ => rfl⟩⟩
              rw [get_put (w := w) (i := i) { w.get i with lastVoltage := x } j]
              by_cases hj : j = i
              · rw [if_pos hj, hj]; exact ⟨x, rfl⟩
              · rw [if_neg hj]; exact ⟨_, rfl⟩
            · right
              have hq' : (w.get i).queued ≠ 0 := hq
              simp only [faultyCall, iterate, faultyHierarchy, multiHierarchy, Fault.outs, Fault.saving]
              rw [isTuned_queued _ _ (outs i x) _ _ hq']
              exact ⟨rfl, fun _ => rfl⟩

/-- No voltages are waiting to be set while a tuner is about to suggest some. -/
def Orderly (a : Autotuner.State (Shared X n) (Volt (Fin n)) (Volt (Fin n))) : Prop :=
  a.status = true → a.pending = none

theorem Same.iterate {I : Newton.EstI X (Fin n)} {lstsq : Newton.Lstsq (Fin n)} {K : Nat}
    {outs : Nat → Volt (Fin n) → List Outcome}
    {a b : Autotuner.State (Shared X n) (Volt (Fin n)) (Volt (Fin n))} (h : Same a b) (ho : Orderly a) :
    Same (Autotuner.iterate (multiHierarchy I lstsq K outs) (.ok ()) a).1
      (Autotuner.iterate (multiHierarchy I lstsq K outs) (.ok ()) b).1 ∧
    Orderly (Autotuner.iterate (multiHierarchy I lstsq K outs) (.ok ()) a).1 ∧
    (Autotuner.iterate (multiHierarchy I lstsq K outs) (.ok ()) a).2.2 =
      (Autotuner.iterate (multiHierarchy I lstsq K outs) (.ok ()) b).2.2 := by
  obtain ⟨w, x, i, st, p⟩ := a
  obtain ⟨w', x', i', st', p'⟩ := b
  obtain ⟨h1, h2, h3, h4, h5, h6, h7⟩ := h
  simp only at h1 h2 h3 h4 h5 h6 h7
  subst h1 h2 h3
  by_cases hc : i = K
  · have key : ∀ (w : Shared X n) (x : Volt (Fin n)),
        Autotuner.iterate (multiHierarchy I lstsq K outs) (.ok ()) ⟨w, x, i, st, p⟩ =
        (⟨w, x, i, st, p⟩, [], .error errComplete) := fun w x => by
      simp [Autotuner.iterate, multiHierarchy, isComplete, hc]
    rw [key, key]
    exact ⟨⟨rfl, rfl, rfl, h4, h5, h6, h7⟩, ho, rfl⟩
  · cases p with
    | some v =>
      by_cases hv : (multiHierarchy I lstsq K outs).hasNaN v = true
      · have key : ∀ (w : Shared X n) (x : Volt (Fin n)),
            Autotuner.iterate (multiHierarchy I lstsq K outs) (.ok ()) ⟨w, x, i, st, some v⟩ =
            (⟨w, x, i, st, some v⟩, [], .error errNaN) := fun w x => by
          simp_all [Autotuner.iterate, multiHierarchy, isComplete]
        rw [key, key]
        exact ⟨⟨rfl, rfl, rfl, h4, h5, h6, h7⟩, ho, rfl⟩
      · have hst : st = false := by
          by_contra hst
          have := ho (by simpa using hst)
          cases this
        have key : ∀ (w : Shared X n) (x : Volt (Fin n)),
            (Autotuner.iterate (multiHierarchy I lstsq K outs) (.ok ()) ⟨w, x, i, st, some v⟩).1 =
              ⟨w, v, 0, st, none⟩ ∧
            (Autotuner.iterate (multiHierarchy I lstsq K outs) (.ok ()) ⟨w, x, i, st, some v⟩).2.2 = .ok () :=
          fun w x => by
            simp_all [Autotuner.iterate, multiHierarchy, isComplete, finish]
        rw [(key w x).1, (key w' x').1, (key w x).2, (key w' x').2]
        exact ⟨⟨rfl, rfl, rfl, h4, h5, fun hs => by simp [hst] at hs, fun _ => rfl⟩, fun _ => rfl, rfl⟩
    | none =>
      have hx : x = x' := h7 rfl
      subst hx
      by_cases hi : K ≤ i
      · have key : ∀ (w : Shared X n) (x : Volt (Fin n)),
            Autotuner.iterate (multiHierarchy I lstsq K outs) (.ok ()) ⟨w, x, i, st, none⟩ =
            (⟨w, x, i, st, none⟩, [], .error .indexError) := fun w x => by
          simp_all [Autotuner.iterate, multiHierarchy, isComplete]
        rw [key, key]
        exact ⟨⟨rfl, rfl, rfl, h4, h5, h6, h7⟩, ho, rfl⟩
      · cases st with
        | false =>
          have heq : isTuned (Newton.solver I lstsq) (outs i x) x (w.get i) =
              isTuned (Newton.solver I lstsq) (outs i x) x (w'.get i) := by
            obtain ⟨v, hv⟩ := h5 i
            rw [hv, isTuned_lastVoltage]
          have key : ∀ (w : Shared X n) (t : OneTuner X n) (r : Except PyErr Bool),
              isTuned (Newton.solver I lstsq) (outs i x) x (w.get i) = (t, r) →
              (Autotuner.iterate (multiHierarchy I lstsq K outs) (.ok ()) ⟨w, x, i, false, none⟩).1 =
                ⟨w.put i t, x, if r = .ok true then i + 1 else i, decide (r = .ok false), none⟩ ∧
              (Autotuner.iterate (multiHierarchy I lstsq K outs) (.ok ()) ⟨w, x, i, false, none⟩).2.2 =
                r.map fun _ => () := fun w t r hr => by
            rcases r with e | (_ | _) <;>
              simp [Autotuner.iterate, multiHierarchy, isComplete, finish, Except.map, hc, hi, hr]
          rcases hr : isTuned (Newton.solver I lstsq) (outs i x) x (w.get i) with ⟨t, r⟩
          have hr' := heq ▸ hr
          rw [(key w t r hr).1, (key w' t r hr').1, (key w t r hr).2, (key w' t r hr').2]
          obtain ⟨p1, p2, p3⟩ := put_same h5 i t
          refine ⟨⟨rfl, rfl, rfl, p1, p2, fun hs => ?_, fun _ => rfl⟩, fun _ => rfl, rfl⟩
          have hs' : r = .ok false := by simpa using hs
          subst hs'
          simpa using p3
        | true =>
          have hg : w.get i = w'.get i := h6 rfl
          have htp : (multiHierarchy I lstsq K outs).tunedParams w i =
              (multiHierarchy I lstsq K outs).tunedParams w' i := by
            have : ∀ j, (w.tuners j).solver.target = (w'.tuners j).solver.target := fun j => by
              obtain ⟨v, hv⟩ := h5 j
              exact congrArg (fun t => t.solver.target) hv
            simp [multiHierarchy, this]
          have key : ∀ (w : Shared X n) (t : OneTuner X n) (r : Except PyErr (Volt (Fin n))),
              nextVoltages (Newton.solver I lstsq) ((multiHierarchy I lstsq K outs).tunedParams w i) (w.get i) =
                (t, r) →
              (Autotuner.iterate (multiHierarchy I lstsq K outs) (.ok ()) ⟨w, x, i, true, none⟩).1 =
                ⟨w.put i t, x, i, !r.isOk, r.toOption⟩ ∧
              (Autotuner.iterate (multiHierarchy I lstsq K outs) (.ok ()) ⟨w, x, i, true, none⟩).2.2 =
                r.map fun _ => () := fun w t r hr => by
            simp only [multiHierarchy] at hr
            rcases r with e | v <;>
              simp [Autotuner.iterate, multiHierarchy, isComplete, finish, Except.map, Except.toOption,
                Except.isOk, Except.toBool, hc, hi, hr]
          rcases hr : nextVoltages (Newton.solver I lstsq)
            ((multiHierarchy I lstsq K outs).tunedParams w i) (w.get i) with ⟨t, r⟩
          have hr' := hr
          rw [hg, htp] at hr'
          rw [(key w t r hr).1, (key w' t r hr').1, (key w t r hr).2, (key w' t r hr').2]
          obtain ⟨p1, p2, p3⟩ := put_same h5 i t
          refine ⟨⟨rfl, rfl, rfl, p1, p2, fun _ => p3, fun _ => rfl⟩, fun hs => ?_, rfl⟩
          rcases r with e | v
          · rfl
          · simp [Except.isOk, Except.toBool] at hs

end Qtune.EndToEnd
