import Verif.Autotuner.PropsRestart

/-! # Crash recovery (C13, C76) -/

namespace Qtune.Autotuner

variable {W X V P C : Type}

/-- Two states that differ at most in what an interrupted write left in the experiment. -/
def SameUpToTornWrite (H : Hierarchy W X V P C) (s t : State W X V) : Prop :=
  s.snapshot = t.snapshot ∧
    (s.expt = t.expt ∨ ∃ v, t.pending = some v ∧ H.setVolt v s.expt = H.setVolt v t.expt ∧
      H.ready t.tuners s.expt t.pending = H.ready t.tuners t.expt t.pending)

theorem SameUpToTornWrite.iterate {H : Hierarchy W X V P C} {s t s' : State W X V}
    {ev : List (Event W V P)} (h : SameUpToTornWrite H s t)
    (hi : Autotuner.iterate H (.ok ()) s = (s', ev, .ok ())) :
    Autotuner.iterate H (.ok ()) t = (s', ev, .ok ()) := by
  obtain ⟨hs, hx | ⟨v, hv, hset, hready⟩⟩ := h
  · have : s = t := by
      cases s; cases t; simp only [State.snapshot, Snapshot.mk.injEq] at hs; simp_all
    rw [← this]; exact hi
  · obtain ⟨w, x, i, st, p⟩ := s
    obtain ⟨w', x', i', st', p'⟩ := t
    simp only [State.snapshot, Snapshot.mk.injEq] at hs
    obtain ⟨rfl, rfl, rfl, rfl⟩ := hs
    simp only at hv hset hready
    subst hv
    have e : ∀ y, Autotuner.iterate H (.ok ()) ⟨w, y, i, st, some v⟩ =
        match H.ready w y (some v) with
        | .error e => (⟨w, y, i, st, some v⟩, [], .error e)
        | .ok false => (⟨w, y, i, st, some v⟩, [], .error errIncomplete)
        | .ok true =>
          if i == H.len then (⟨w, y, i, st, some v⟩, [], .error errComplete)
          else if H.hasNaN v then (⟨w, y, i, st, some v⟩, [], .error errNaN)
          else match H.setVolt v y with
            | (x, .error e) => (⟨w, x, i, st, some v⟩, [.wrote v (.error e)], .error e)
            | (x, .ok ()) => finish (.ok ()) ⟨w, x, 0, st, none⟩ (.wrote v (.ok ())) := by
      intro y; unfold Autotuner.iterate; rfl
    rw [e] at hi ⊢
    rw [← hready, ← hset]
    cases hr : H.ready w x (some v) with
    | error e => rw [hr] at hi; simp at hi
    | ok b =>
      cases b with
      | false => rw [hr] at hi; simp at hi
      | true =>
        rw [hr] at hi
        simp only at hi ⊢
        split at hi
        · simp at hi
        · split at hi
          · simp at hi
          · rename_i h1 h2; rw [if_neg h1, if_neg h2]; exact hi

theorem newestFile_append (first : Snapshot W V) (l l' : List (Event W V P)) :
    newestFile first (l ++ l') = newestFile (newestFile first l) l' := by
  induction l generalizing first with
  | nil => rfl
  | cons e l ih => cases e <;> simp [newestFile, ih]

/-- An iteration that returns normally has handed its final state to the writer. -/
theorem iterate_saves (H : Hierarchy W X V P C) {s s' : State W X V} {ev : List (Event W V P)}
    (h : iterate H (.ok ()) s = (s', ev, .ok ())) (p : Snapshot W V) :
    newestFile p ev = s'.snapshot := by
  have hfin : ∀ (t : State W X V) (e : Event W V P), (∀ q, e ≠ .saved q) →
      finish (.ok ()) t e = (s', ev, .ok ()) → newestFile p ev = s'.snapshot := by
    intro t e he h
    unfold finish at h
    simp only [Prod.mk.injEq, and_true] at h
    obtain ⟨rfl, rfl⟩ := h
    cases e <;> first | rfl | exact absurd rfl (he _)
  revert h
  fun_cases iterate H (.ok ()) s <;> intro h
  all_goals first
    | (exfalso; simp at h; done)
    | exact hfin _ _ (by simp) h

/-- The newest file describes the state. -/
theorem CrashRun.file {H : Hierarchy W X V P C} {s₀ s : State W X V} {log : List (Event W V P)}
    (h : CrashRun H s₀ s log) : newestFile s₀.snapshot log = s.snapshot := by
  induction h with
  | start => rfl
  | iter _ hi ih => rw [newestFile_append, iterate_saves H hi]
  | crash _ _ _ => rfl

/-- **C13.** Assume that evaluations leave the experiment as they found it, that writing the
same voltages twice has the same effect as writing them once and that readiness does not
depend on the values of the voltages.  Then for every execution interrupted by any number
of crashes at any points – before the action, after it but before saving, or in the middle
of a write – with reloads from the file of the last completed iteration, the completed
iterations perform exactly the evaluations, suggestions and writes (with the same
results) of an execution that never crashed, and end with the same autotuner state. The
experiment is in the same state too, up to an interrupted write whose voltages are still
pending. -/
theorem crash_recovery (H : Hierarchy W X V P C)
    (hpure : ∀ i v w x, (H.isTuned i v w x).1.2 = x)
    (hidem : ∀ v x, H.setVolt v (H.setVolt v x).1 = H.setVolt v x)
    (hready : ∀ w v x p, H.ready w (H.setVolt v x).1 p = H.ready w x p)
    (s₀ s : State W X V) (log : List (Event W V P)) (h : CrashRun H s₀ s log) :
    ∃ (k : Nat) (t : State W X V),
      run H s₀ (List.replicate k (.iterate (.ok ()))) = (t, log) ∧
      s.snapshot = t.snapshot ∧
      (s.expt = t.expt ∨ ∃ v, s.pending = some v ∧ H.setVolt v s.expt = H.setVolt v t.expt) := by
  have key : ∃ (k : Nat) (t : State W X V),
      run H s₀ (List.replicate k (.iterate (.ok ()))) = (t, log) ∧ SameUpToTornWrite H s t := by
    induction h with
    | start => exact ⟨0, s₀, rfl, rfl, Or.inl rfl⟩
    | @iter s s' log ev _ hi ih =>
      obtain ⟨k, t, hr, hst⟩ := ih
      refine ⟨k + 1, s', ?_, rfl, Or.inl rfl⟩
      have ht := hst.iterate hi
      have happ : ∀ (l : List (Op X C)) (s t : State W X V) (log : List (Event W V P)) (op : Op X C),
          run H s l = (t, log) →
          run H s (l ++ [op]) = ((step H t op).1, log ++ (step H t op).2.1) := by
        intro l
        induction l with
        | nil => intro s t log op h; simp [run] at h; obtain ⟨rfl, rfl⟩ := h; simp [run]
        | cons a l ih =>
          intro s t log op h
          simp only [run, Prod.mk.injEq] at h
          obtain ⟨h1, h2⟩ := h
          have := ih (step H s a).1 t (run H (step H s a).1 l).2 op (by rw [← h1])
          simp only [List.cons_append, run, this, ← h2, List.append_assoc]
      rw [List.replicate_succ', happ _ _ _ _ _ hr]
      simp [step, ht]
    | @crash s log x' hrun hc ih =>
      rw [hrun.file]
      obtain ⟨k, t, hr, hsnap, hx⟩ := ih
      refine ⟨k, t, hr, hsnap, ?_⟩
      have hpend : s.pending = t.pending := congrArg Snapshot.pending hsnap
      have htun : s.tuners = t.tuners := congrArg Snapshot.tuners hsnap
      -- what a torn write on top of the present difference amounts to
      have torn : ∀ v, s.pending = some v → H.setVolt v x' = H.setVolt v s.expt →
          H.ready s.tuners x' s.pending = H.ready s.tuners s.expt s.pending →
          x' = t.expt ∨ ∃ v, t.pending = some v ∧ H.setVolt v x' = H.setVolt v t.expt ∧
            H.ready t.tuners x' t.pending = H.ready t.tuners t.expt t.pending := by
        intro v hv hset hrdy
        refine Or.inr ⟨v, hpend ▸ hv, ?_, ?_⟩
        · rcases hx with hx | ⟨v', hv', hset', -⟩
          · rw [hset, hx]
          · have : v' = v := by
              have := hv'.symm.trans (hpend ▸ hv); simpa using this
            rw [hset, ← this, hset']
        · rcases hx with hx | ⟨v', hv', -, hr'⟩
          · rw [← hpend, ← htun, hrdy, hx]
          · rw [← hr', ← hpend, ← htun, hrdy]
      show x' = t.expt ∨ _
      rcases hc with rfl | hx' | ⟨v, hv, hset, hrdy⟩
      · exact hx
      · -- the experiment is as after the complete call
        cases hp : s.pending with
        | none =>
          have : (iterate H (.ok ()) s).1.expt = s.expt := by
            unfold iterate
            split
            · rfl
            · rfl
            · split
              · rfl
              · rw [hp]
                simp only
                split
                · rfl
                · split
                  · have hpu := hpure s.index (H.read s.expt) s.tuners s.expt
                    rcases hset : H.isTuned s.index (H.read s.expt) s.tuners s.expt with
                      ⟨⟨w2, x2⟩, (er2 | (_ | _))⟩ <;> rw [hset] at hpu <;> simpa [finish] using hpu
                  · rcases hset : H.nextVolt s.index (H.tunedParams s.tuners s.index) s.tuners with
                      ⟨w2, (er2 | v2)⟩ <;> simp [finish]
          rw [hx', this]; exact hx
        | some v =>
          have hcase : (iterate H (.ok ()) s).1.expt = s.expt ∨
              (iterate H (.ok ()) s).1.expt = (H.setVolt v s.expt).1 := by
            unfold iterate
            split
            · exact Or.inl rfl
            · exact Or.inl rfl
            · split
              · exact Or.inl rfl
              · rw [hp]
                simp only
                split
                · exact Or.inl rfl
                · right
                  rcases hset : H.setVolt v s.expt with ⟨x2, (er2 | _)⟩ <;> simp [finish]
          rcases hcase with hcase | hcase
          · rw [hx', hcase]; exact hx
          · rw [hcase] at hx'
            exact torn v hp (by rw [hx', hidem]) (by rw [hx', hready])
      · exact torn v hv hset hrdy
  obtain ⟨k, t, hr, hsnap, hx⟩ := key
  have hpend : s.pending = t.pending := congrArg Snapshot.pending hsnap
  refine ⟨k, t, hr, hsnap, ?_⟩
  rcases hx with hx | ⟨v, hv, hset, -⟩
  · exact Or.inl hx
  · exact Or.inr ⟨v, hpend ▸ hv, hset⟩

/-- The toy hierarchy meets the hypotheses of `crash_recovery`. -/
example : (∀ i v w x, (toy.isTuned i v w x).1.2 = x) ∧
    (∀ v x, toy.setVolt v (toy.setVolt v x).1 = toy.setVolt v x) ∧
    (∀ w v x p, toy.ready w (toy.setVolt v x).1 p = toy.ready w x p) :=
  ⟨fun _ _ _ _ => rfl, fun _ _ => rfl, fun _ _ _ _ => rfl⟩

/-- … and its execution with a crash in the third iteration, after the voltages were written
but before the state was saved, is one of those covered. -/
example : CrashRun toy (fresh 0 0) ⟨0, 1, 0, false, some 1⟩
    [.evaluated 0 0 (.ok false), .saved ⟨0, 0, true, none⟩,
     .suggested 0 () (.ok 1), .saved ⟨0, 0, false, some 1⟩] := by
  have h1 : CrashRun toy (fresh 0 0) ⟨0, 0, 0, true, none⟩ _ := .iter .start rfl
  have h2 : CrashRun toy (fresh 0 0) ⟨0, 0, 0, false, some 1⟩ _ := .iter h1 rfl
  exact .crash (x' := 1) h2 (Or.inr (Or.inl rfl))

/-! ## C76: the file must be that of the *last* completed iteration

The writer is asynchronous (storage.py:297-369), so after a crash the newest complete file
can be older than the last completed iteration. -/

/-- A hierarchy whose two tuners want opposite things: tuner 0 is tuned at 0 V or 5 V only and
tuner 1 at 3 V or 5 V only. Tuner 1 suggests 3 V, tuner 0 suggests 5 V. -/
def toyOpposed : Hierarchy Int Int Int Unit Unit :=
  { toy with
    isTuned := fun i v _ x => ((v, x), .ok (if i = 0 then v == 0 || v == 5 else v == 3 || v == 5))
    nextVolt := fun i _ w => (w, .ok (if i = 0 then 5 else 3)) }

/-- **C76 is false**: reloading from a file that an *earlier* iteration saved, while the
hardware has moved on, can report completion although tuner 0 is not tuned at the present
voltages.  (File of iteration 1; crash after iteration 4, which wrote 3 V.) -/
theorem stale_file_recovery_refuted :
    ∃ (snap : Snapshot Int Int) (log : List (Event Int Int Unit)) (s : State Int Int Int),
      run toyOpposed (fresh 0 0) (List.replicate 4 it) = (s, log) ∧
      Event.saved snap ∈ log ∧
      isComplete toyOpposed (run toyOpposed (snap.load s.expt) [it]).1 = true ∧
      (toyOpposed.isTuned 0 (toyOpposed.read (run toyOpposed (snap.load s.expt) [it]).1.expt)
        (run toyOpposed (snap.load s.expt) [it]).1.tuners
        (run toyOpposed (snap.load s.expt) [it]).1.expt).2 = .ok false :=
  ⟨⟨0, 1, false, none⟩, _, _, rfl, by
    exact List.mem_cons_of_mem _ List.mem_cons_self, rfl, rfl⟩

end Qtune.Autotuner
