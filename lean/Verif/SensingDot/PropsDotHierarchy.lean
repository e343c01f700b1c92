import Verif.SensingDot.DotHierarchyModel
import Verif.Evaluator.Sd1dProps

/-!
# C184: a hierarchy that begins with a sensing dot can be tuned
-/

namespace Qtune.SensingDot

open _root_.Qtune.Tuner Qtune.Evaluator Qtune.Autotuner

variable {S ι R X P C : Type}

/-- No gate voltage was set. -/
def NothingSet {W V P : Type} (log : List (Event W V P)) : Prop := ∀ v r, Event.wrote v r ∉ log

theorem dotIsTuned_raises (I : SolverI S ι) (poly : Polynomials) (read : X → Except PyErr (List (String × ℝ)))
    (measure : X → SD1 → Except PyErr (List ℝ)) (expensive : X → List Outcome) (v : Volt ι) (w : DotWorld S ι R) (x : X) :
    ∃ e, (dotIsTuned I poly read measure expensive v w x).2 = .error e := by
  obtain ⟨e, he⟩ := sensing_dot_1d_refuted poly (read x) (measure x) w.scan
  refine ⟨e, ?_⟩
  simp only [dotIsTuned, he, asOutcome, SensingDot.isTuned, SensingDot.evaluate, collect]

/-- **C184**, what is left behind: the evaluation of the dot that raises leaves the tuner and all other objects as they were; the evaluator
keeps the data of the scan, and the present voltage of the gate as its center. -/
theorem sensing_dot_scan_kept (I : SolverI S ι) (poly : Polynomials) (read : X → Except PyErr (List (String × ℝ)))
    (measure : X → SD1 → Except PyErr (List ℝ)) (expensive : X → List Outcome) (v : Volt ι) (w : DotWorld S ι R) (x : X) :
    let after := (dotIsTuned I poly read measure expensive v w x).1
    after.1.tuner = w.tuner ∧ after.1.rest = w.rest ∧ after.2 = x ∧
    ∀ volts c data, read x = .ok volts → volts.lookup w.scan.sweepingGate = some c →
      measure x { w.scan with gate := w.scan.sweepingGate, center := some c } = .ok data →
      after.1.scan.rawY = some data ∧ after.1.scan.center = some c := by
  obtain ⟨e, he⟩ := sensing_dot_1d_refuted poly (read x) (measure x) w.scan
  refine ⟨?_, rfl, rfl, fun volts c data h1 h2 h3 => ?_⟩
  · simp only [dotIsTuned, he, asOutcome, SensingDot.isTuned, SensingDot.evaluate, collect]
  · simp only [dotIsTuned, SD1.evaluate, h1, h2, h3]
    have hp : ∀ (xs ys : List ℝ) (ev : SD1), (ev.process poly xs ys).1.rawY = ev.rawY ∧ (ev.process poly xs ys).1.center = ev.center := by
      intro xs ys ev
      unfold SD1.process
      repeat' split
      all_goals first | exact ⟨rfl, rfl⟩ | (dsimp only; repeat' split) <;> exact ⟨rfl, rfl⟩
    have := hp (Fit.linspaceList (c - w.scan.range) (c + w.scan.range) w.scan.nPoints) data
      { w.scan with gate := w.scan.sweepingGate, center := some c, rawY := some data,
                    rawX := some (Fit.linspaceList (c - w.scan.range) (c + w.scan.range) w.scan.nPoints) }
    split
    · next hq => rw [hq] at this; exact this
    · next hq => rw [hq] at this; exact this

/-- The beginning: the next thing to do is the evaluation of the first tuner. -/
def AtStart {W V : Type} (s : State W X V) : Prop := s.index = 0 ∧ s.status = false ∧ s.pending = none

/-- **C184** is false.  Whatever the other tuners, the device, the solver, the target, the polynomials, the data and the results of the expensive evaluators
are, and whatever the user does: every call of `iterate` raises, and no gate voltage is ever set. -/
theorem sensing_dot_hierarchy_refuted (H : Hierarchy (DotWorld S ι R) X (Volt ι) P C) (hlen : 0 < H.len) (I : SolverI S ι) (poly : Polynomials)
    (read : X → Except PyErr (List (String × ℝ))) (measure : X → SD1 → Except PyErr (List ℝ)) (expensive : X → List Outcome)
    (hfirst : H.isTuned 0 = dotIsTuned I poly read measure expensive) (w : DotWorld S ι R) (x : X) (ops : List (Autotuner.Op X C)) :
    NothingSet (run H (fresh w x) ops).2 ∧ ∀ save, ∃ e, (iterate H save (run H (fresh w x) ops).1).2.2 = .error e := by
  have hit : ∀ (save : Except PyErr Unit) (s : State (DotWorld S ι R) X (Volt ι)), AtStart s →
      AtStart (iterate H save s).1 ∧ NothingSet (iterate H save s).2.1 ∧ ∃ e, (iterate H save s).2.2 = .error e := by
    intro save s ⟨h1, h2, h3⟩
    unfold iterate
    rcases hr : H.ready s.tuners s.expt s.pending with e | b
    · exact ⟨⟨h1, h2, h3⟩, by simp [NothingSet], e, rfl⟩
    · cases b with
      | false => exact ⟨⟨h1, h2, h3⟩, by simp [NothingSet], _, rfl⟩
      | true =>
        simp only [isComplete, h1, h3]
        split
        · exact ⟨⟨h1, h2, h3⟩, by simp [NothingSet], _, rfl⟩
        · rw [if_neg (Nat.not_le.2 hlen)]
          obtain ⟨e, he⟩ := dotIsTuned_raises I poly read measure expensive (H.read s.expt) s.tuners s.expt
          rw [hfirst]
          rcases hd : dotIsTuned I poly read measure expensive (H.read s.expt) s.tuners s.expt with ⟨⟨w', x'⟩, r⟩
          rw [hd] at he
          simp only at he
          subst he
          exact ⟨⟨rfl, h2, rfl⟩, by simp [NothingSet], e, rfl⟩
  have hstep : ∀ (s : State (DotWorld S ι R) X (Volt ι)) (op : Autotuner.Op X C), AtStart s →
      AtStart (step H s op).1 ∧ NothingSet (step H s op).2.1 := by
    intro s op hs
    cases op with
    | iterate save => exact ⟨(hit save s hs).1, (hit save s hs).2.1⟩
    | restart =>
      simp only [step, restart]
      exact ⟨⟨rfl, hs.2.1, rfl⟩, by simp [NothingSet]⟩
    | changeTargets c =>
      simp only [step, changeTargets]
      split
      · exact ⟨hs, by simp [NothingSet]⟩
      · split
        · exact ⟨hs, by simp [NothingSet]⟩
        · exact ⟨⟨rfl, hs.2.1, rfl⟩, by simp [NothingSet]⟩
    | manual x => exact ⟨hs, by simp [step, NothingSet]⟩
  have hrun : ∀ (ops : List (Autotuner.Op X C)) (s : State (DotWorld S ι R) X (Volt ι)), AtStart s →
      AtStart (run H s ops).1 ∧ NothingSet (run H s ops).2 := by
    intro ops
    induction ops with
    | nil => exact fun s hs => ⟨hs, by simp [run, NothingSet]⟩
    | cons op ops ih =>
      intro s hs
      obtain ⟨a, b⟩ := hstep s op hs
      obtain ⟨c, d⟩ := ih _ a
      refine ⟨c, fun v r hm => ?_⟩
      rcases List.mem_append.1 hm with h | h
      · exact b v r h
      · exact d v r h
  obtain ⟨a, b⟩ := hrun ops (fresh w x) ⟨rfl, rfl, rfl⟩
  exact ⟨b, fun save => (hit save _ a).2.2⟩

/-- A hierarchy that consists of such a tuner. -/
example (I : SolverI S ι) (poly : Polynomials) (read : X → Except PyErr (List (String × ℝ))) (measure : X → SD1 → Except PyErr (List ℝ))
    (expensive : X → List Outcome) (volts : X → Volt ι) (set : Volt ι → X → X) :
    ∃ H : Hierarchy (DotWorld S ι Unit) X (Volt ι) (List String) Unit, 0 < H.len ∧ H.isTuned 0 = dotIsTuned I poly read measure expensive ∧
      ∀ w x, H.ready w x none = .ok true :=
  ⟨{ len := 1
     ready := fun _ _ _ => .ok true
     read := volts
     hasNaN := fun _ => false
     setVolt := fun v x => (set v x, .ok ())
     isTuned := fun _ => dotIsTuned I poly read measure expensive
     nextVolt := fun _ _ w => (w, .error (.other 0))
     tunedParams := fun _ _ => []
     restartTuners := fun _ w => (w, .ok ())
     nChanges := fun _ => 0
     applyTargets := fun _ w => (w, .ok ()) }, Nat.one_pos, rfl, fun _ _ => rfl⟩

end Qtune.SensingDot
