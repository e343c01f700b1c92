import Verif.TestExperiment.SharingModel

/-!
# C183: objects do not influence each other through the Series they are constructed with
-/

namespace Qtune.Sharing

open Qtune.TargetOps

/-- The Series that the objects of a session hold. -/
def Session.refs (s : Session Nat) : List Nat := s.exp :: s.solver :: s.ests.map Est.pos

/-- What the objects see: the contents of their Series. -/
def Session.seen (h : Heap) (s : Session Nat) : Session Series := ⟨h.data s.exp, h.data s.solver, s.ests.map (Est.map h.data)⟩

/-- Whether an estimator is a `KalmanGradientEstimator`. -/
def Est.isKalman {α : Type} : Est α → Prop
  | .kalman _ _ _ => True
  | .fd _ _ _ _ => False

/-- The experiment, the solver and each `FiniteDifferencesGradientEstimator` got a Series of their own; the `KalmanGradientEstimator`s may share one, as
in the tutorial. -/
structure Separate (h : Heap) (s : Session Nat) : Prop where
  expSolver : s.exp ≠ s.solver
  exp : ∀ e ∈ s.ests, e.pos ≠ s.exp
  solver : ∀ e ∈ s.ests, e.pos ≠ s.solver
  ests : s.ests.Pairwise fun a b => a.pos = b.pos → a.isKalman ∧ b.isKalman
  known : ∀ r ∈ s.refs, r < h.next

/-- As in the tutorial: the Kalman estimators and the solver may share Series, but not with the experiment. -/
structure Tutorial (h : Heap) (s : Session Nat) : Prop where
  expSolver : s.exp ≠ s.solver
  exp : ∀ e ∈ s.ests, e.pos ≠ s.exp
  kalman : ∀ e ∈ s.ests, e.isKalman
  known : ∀ r ∈ s.refs, r < h.next

theorem Heap.alloc_data (h : Heap) (s : Series) {r : Nat} (hr : r < h.next) : (h.alloc s).data r = h.data r := by
  simp [Heap.alloc, Function.update_of_ne (Nat.ne_of_lt hr)]

theorem Heap.alloc_new (h : Heap) (s : Series) : (h.alloc s).data h.next = s := by simp [Heap.alloc]

theorem Heap.write_data (h : Heap) (s : Series) {r q : Nat} (hr : r ≠ q) : (h.write q s).data r = h.data r := by
  simp [Heap.write, Function.update_of_ne hr]

theorem Heap.write_same (h : Heap) (s : Series) (q : Nat) : (h.write q s).data q = s := by simp [Heap.write]

/-- One estimator: what it sees afterwards is what the value semantics says, its Series is new or the one it had, and no other Series changes. -/
theorem updateH_spec (r : Nat) (x : ℝ × ℝ) (h : Heap) (e : Est Nat) (he : e.pos < h.next) :
    (updateH r x h e).2.map (updateH r x h e).1.data = updateV (h.data r) x (e.map h.data) ∧
      h.next ≤ (updateH r x h e).1.next ∧ (updateH r x h e).2.pos < (updateH r x h e).1.next ∧
      ((updateH r x h e).2.pos = e.pos ∨ h.next ≤ (updateH r x h e).2.pos) ∧
      (e.isKalman → (updateH r x h e).2.isKalman ∧ h.next ≤ (updateH r x h e).2.pos) ∧
      ∀ q, q < h.next → (q = e.pos → e.isKalman) → (updateH r x h e).1.data q = h.data q := by
  cases e with
  | kalman pos value fed =>
    cases value with
    | none =>
      refine ⟨by simp [updateH, updateV, Est.map, Heap.alloc_new], by simp [updateH, Heap.alloc], by simp [updateH, Heap.alloc, Est.pos],
        .inr (by simp [updateH, Est.pos]), fun _ => ⟨by simp [updateH, Est.isKalman], by simp [updateH, Est.pos]⟩, fun q hq _ => by simp [updateH, Heap.alloc_data _ _ hq]⟩
    | some v =>
      refine ⟨by simp [updateH, updateV, Est.map, Heap.alloc_new], by simp [updateH, Heap.alloc], by simp [updateH, Heap.alloc, Est.pos],
        .inr (by simp [updateH, Est.pos]), fun _ => ⟨by simp [updateH, Est.isKalman], by simp [updateH, Est.pos]⟩, fun q hq _ => by simp [updateH, Heap.alloc_data _ _ hq]⟩
  | fd pos symmetric full stored =>
    simp only [Est.pos] at he
    by_cases hb : blank (h.data pos) = true
    · have e1 : updateH r x h (.fd pos symmetric full stored) = (h.write pos (overwrite (h.data pos) (common (h.data pos) (h.data r))),
          .fd pos symmetric full (if symmetric then stored else stored ++ [(pick (h.data pos).index (common (h.data pos) (h.data r)), x.1, x.2)])) := by
        simp only [updateH, if_pos hb]
      rw [e1]
      refine ⟨?_, le_refl _, he, .inl rfl, fun hk => hk.elim, fun q _ hne => Heap.write_data h _ fun hc => hne hc⟩
      simp only [updateV, Est.map, if_pos hb, Heap.write_same]
    · by_cases hl : stored.length < full
      · have e1 : updateH r x h (.fd pos symmetric full stored) = (h,
            .fd pos symmetric full (stored ++ [(pick (h.data pos).index (common (h.data pos) (h.data r)), x.1, x.2)])) := by
          simp only [updateH, if_neg hb, if_pos hl]
        rw [e1]
        refine ⟨?_, le_refl _, he, .inl rfl, fun hk => hk.elim, fun q _ _ => rfl⟩
        simp only [updateV, Est.map, if_neg hb, if_pos hl]
      · have e1 : updateH r x h (.fd pos symmetric full stored) = (h, .fd pos symmetric full stored) := by
          simp only [updateH, if_neg hb, if_neg hl]
        rw [e1]
        refine ⟨?_, le_refl _, he, .inl rfl, fun hk => hk.elim, fun q _ _ => rfl⟩
        simp only [updateV, Est.map, if_neg hb, if_neg hl]

theorem Est.map_congr {f g : Nat → Series} (e : Est Nat) (h : f e.pos = g e.pos) : e.map f = e.map g := by
  cases e <;> simpa [Est.map, Est.pos] using h

theorem map_seen_congr {es : List (Est Nat)} {f g : Nat → Series} (h : ∀ e ∈ es, f e.pos = g e.pos) :
    es.map (Est.map f) = es.map (Est.map g) := List.map_congr_left fun e he => e.map_congr (h e he)

/-- All estimators. -/
theorem updateAllH_spec (r : Nat) : ∀ (xs : List (ℝ × ℝ)) (es : List (Est Nat)) (h : Heap), r < h.next → (∀ e ∈ es, e.pos < h.next) →
    (es.Pairwise fun a b => a.pos = b.pos → a.isKalman ∧ b.isKalman) → (∀ e ∈ es, e.pos ≠ r) →
    (updateAllH r xs es h).2.map (Est.map (updateAllH r xs es h).1.data) = updateAllV (h.data r) xs (es.map (Est.map h.data)) ∧
      h.next ≤ (updateAllH r xs es h).1.next ∧ (∀ e ∈ (updateAllH r xs es h).2, e.pos < (updateAllH r xs es h).1.next) ∧
      ((updateAllH r xs es h).2.Pairwise fun a b => a.pos = b.pos → a.isKalman ∧ b.isKalman) ∧
      (∀ e' ∈ (updateAllH r xs es h).2, (∃ e ∈ es, e'.pos = e.pos) ∨ h.next ≤ e'.pos) ∧
      ∀ q, q < h.next → (∀ e ∈ es, e.pos = q → e.isKalman) → (updateAllH r xs es h).1.data q = h.data q := by
  intro xs
  induction xs with
  | nil =>
    intro es h hr he hn hne
    have e1 : updateAllH r [] es h = (h, es) := by simp [updateAllH]
    have e2 : updateAllV (h.data r) [] (es.map (Est.map h.data)) = es.map (Est.map h.data) := by simp [updateAllV]
    rw [e1, e2]
    exact ⟨rfl, le_refl _, he, hn, fun e hq => .inl ⟨e, hq, rfl⟩, fun q _ _ => rfl⟩
  | cons x xs ih =>
    intro es h hr he hn hne
    cases es with
    | nil =>
      exact ⟨by simp [updateAllH, updateAllV], le_refl _, by simp [updateAllH], by simp [updateAllH], by simp [updateAllH],
        fun q _ _ => rfl⟩
    | cons e es =>
      obtain ⟨hn1, hn2⟩ := List.pairwise_cons.1 hn
      obtain ⟨a1, a2, a3, a4, ak, a5⟩ := updateH_spec r x h e (he e (by simp))
      have hr' : (updateH r x h e).1.data r = h.data r := a5 r hr fun hc => absurd hc.symm (hne e (by simp))
      have hes : ∀ e' ∈ es, (updateH r x h e).1.data e'.pos = h.data e'.pos := fun e' he' =>
        a5 _ (he e' (by simp [he'])) fun hc => (hn1 e' he' hc.symm).1
      obtain ⟨b1, b2, b3, b4, b5, b6⟩ := ih es (updateH r x h e).1 (lt_of_lt_of_le hr a2)
        (fun e' he' => lt_of_lt_of_le (he e' (by simp [he'])) a2) hn2 fun e' he' => hne e' (by simp [he'])
      have hnew : ∀ e' ∈ es, e'.pos ≠ (updateH r x h e).2.pos := by
        intro e' he' hc
        have h1 := he e' (by simp [he'])
        by_cases hk : e.isKalman
        · have := (ak hk).2
          omega
        · rcases a4 with h4 | h4
          · exact hk (hn1 e' he' (by rw [hc, h4])).1
          · omega
      have hkeep := b6 _ a3 fun e' he' hc => absurd hc (hnew e' he')
      simp only [updateAllH, List.map_cons, updateAllV]
      refine ⟨?_, le_trans a2 b2, ?_, ?_, ?_, ?_⟩
      · rw [b1, hr', map_seen_congr hes, Est.map_congr _ hkeep, a1]
      · intro e' he'
        rcases List.mem_cons.1 he' with h' | h'
        · subst h'; exact lt_of_lt_of_le a3 b2
        · exact b3 e' h'
      · refine List.pairwise_cons.2 ⟨fun e' he' hc => ?_, b4⟩
        rcases b5 _ he' with ⟨e'', he'', h'⟩ | h'
        · exact absurd (by rw [hc, h']) (hnew e'' he'')
        · omega
      · intro e' he'
        rcases List.mem_cons.1 he' with h' | h'
        · subst h'
          rcases a4 with h4 | h4
          · exact .inl ⟨e, by simp, h4⟩
          · exact .inr h4
        · rcases b5 e' h' with ⟨e'', he'', h''⟩ | h''
          · exact .inl ⟨e'', by simp [he''], h''⟩
          · exact .inr (le_trans a2 h'')
      · intro q hq hq'
        rw [b6 q (lt_of_lt_of_le hq a2) fun e' he' => hq' e' (by simp [he']), a5 q hq fun hc => hq' e (by simp) hc.symm]

theorem pos_restart {α : Type} (e : Est α) : e.restart.pos = e.pos := by cases e <;> rfl

theorem map_restart (f : Nat → Series) (e : Est Nat) : e.restart.map f = (e.map f).restart := by cases e <;> rfl

theorem isKalman_restart {α : Type} (e : Est α) : e.restart.isKalman ↔ e.isKalman := by cases e <;> rfl

theorem mem_refs_est {s : Session Nat} {e : Est Nat} (he : e ∈ s.ests) : e.pos ∈ s.refs := by
  simp only [Session.refs, List.mem_cons, List.mem_map]
  exact .inr (.inr ⟨e, he, rfl⟩)

/-- An evaluation separates the Series. -/
theorem evaluate_spec (xs : List (ℝ × ℝ)) (h : Heap) (s : Session Nat) (hle : ∀ e ∈ s.ests, e.pos ≠ s.exp)
    (hls : ∀ e ∈ s.ests, e.pos = s.solver → e.isKalman) (hn : s.ests.Pairwise fun a b => a.pos = b.pos → a.isKalman ∧ b.isKalman)
    (hk : ∀ r ∈ s.refs, r < h.next) :
    (stepH (.evaluate xs) (h, s)).2.seen (stepH (.evaluate xs) (h, s)).1 = stepV (.evaluate xs) (s.seen h) ∧
      Separate (stepH (.evaluate xs) (h, s)).1 (stepH (.evaluate xs) (h, s)).2 ∧
      h.next ≤ (stepH (.evaluate xs) (h, s)).1.next ∧ (∀ q ∈ (stepH (.evaluate xs) (h, s)).2.refs, q ∈ s.refs ∨ h.next ≤ q) ∧
      ∀ q, q < h.next → q ∉ s.refs → (stepH (.evaluate xs) (h, s)).1.data q = h.data q := by
  have hke : s.exp < h.next := hk _ (by simp [Session.refs])
  have hks : s.solver < h.next := hk _ (by simp [Session.refs])
  have hkl : ∀ e ∈ s.ests, e.pos < h.next := fun e he => hk _ (mem_refs_est he)
  have hnx : (h.alloc (h.data s.exp)).next = h.next + 1 := rfl
  have hsame : ∀ e ∈ s.ests, (h.alloc (h.data s.exp)).data e.pos = h.data e.pos := fun e he => Heap.alloc_data _ _ (hkl e he)
  have hfresh : ∀ e ∈ s.ests, e.pos ≠ h.next := fun e he hc => by
    have := hkl e he
    omega
  obtain ⟨b1, b2, b3, b4, b5, b6⟩ := updateAllH_spec h.next xs s.ests (h.alloc (h.data s.exp)) (by omega)
    (fun e he => by have := hkl e he; omega) hn hfresh
  rw [Heap.alloc_new, map_seen_congr hsame] at b1
  generalize hu : updateAllH h.next xs s.ests (h.alloc (h.data s.exp)) = u at b1 b2 b3 b4 b5 b6
  have hstep : stepH (.evaluate xs) (h, s) = (u.1.alloc (pick (u.1.data s.solver).index (u.1.data h.next)), ⟨s.exp, u.1.next, u.2⟩) := by
    simp only [stepH, hu]
  have g1 : u.1.data s.exp = h.data s.exp := by
    rw [b6 _ (by omega) fun e he hc => absurd hc (hle e he), Heap.alloc_data _ _ hke]
  have g2 : u.1.data s.solver = h.data s.solver := by rw [b6 _ (by omega) hls, Heap.alloc_data _ _ hks]
  have g3 : u.1.data h.next = h.data s.exp := by
    rw [b6 _ (by omega) fun e he hc => absurd hc (hfresh e he), Heap.alloc_new]
  rw [hstep]
  refine ⟨?_, ⟨?_, ?_, ?_, b4, ?_⟩, by simp [Heap.alloc]; omega, ?_, ?_⟩
  · simp only [stepV, Session.seen, Session.mk.injEq, Heap.alloc_new, g2, g3]
    refine ⟨by rw [Heap.alloc_data _ _ (by omega), g1], trivial, ?_⟩
    rw [← b1]
    exact map_seen_congr fun e he => Heap.alloc_data _ _ (b3 e he)
  · show s.exp ≠ u.1.next
    omega
  · intro e he
    show e.pos ≠ s.exp
    rcases b5 e he with ⟨e', he', h'⟩ | h'
    · rw [h']; exact hle e' he'
    · omega
  · intro e he
    have := b3 e he
    show e.pos ≠ u.1.next
    omega
  · intro r hr
    simp only [Session.refs, List.mem_cons] at hr
    simp only [Heap.alloc]
    rcases hr with h' | h' | h'
    · omega
    · omega
    · obtain ⟨e, he, rfl⟩ := List.mem_map.1 h'
      have := b3 e he
      omega
  · intro q hq
    simp only [Session.refs, List.mem_cons] at hq
    rcases hq with h' | h' | h'
    · exact .inl (by simp [Session.refs, h'])
    · exact .inr (by omega)
    · obtain ⟨e, he, rfl⟩ := List.mem_map.1 h'
      rcases b5 e he with ⟨e', he', h''⟩ | h''
      · exact .inl (by rw [h'']; exact mem_refs_est he')
      · exact .inr (by omega)
  · intro q hq hq'
    rw [Heap.alloc_data _ _ (by omega), b6 q (by omega) fun e he hc => absurd (mem_refs_est he) (hc ▸ hq'), Heap.alloc_data _ _ hq]

/-- One operation. -/
theorem step_spec (op : Op) (h : Heap) (s : Session Nat) (hs : Separate h s) :
    (stepH op (h, s)).2.seen (stepH op (h, s)).1 = stepV op (s.seen h) ∧ Separate (stepH op (h, s)).1 (stepH op (h, s)).2 ∧
      h.next ≤ (stepH op (h, s)).1.next ∧ (∀ q ∈ (stepH op (h, s)).2.refs, q ∈ s.refs ∨ h.next ≤ q) ∧
      ∀ q, q < h.next → q ∉ s.refs → (stepH op (h, s)).1.data q = h.data q := by
  have hs' := hs
  obtain ⟨hes, hle, hls, hn, hk⟩ := hs
  cases op with
  | move v =>
    refine ⟨?_, ⟨hes, hle, hls, hn, fun r hr => hk r hr⟩, le_refl _, fun q hq => .inl hq, fun q _ hq => ?_⟩
    · simp only [stepH, stepV, Session.seen, Session.mk.injEq]
      exact ⟨Heap.write_same .., Heap.write_data _ _ (Ne.symm hes), map_seen_congr fun e he => Heap.write_data _ _ (hle e he)⟩
    · exact Heap.write_data _ _ fun hc => hq (by simp [Session.refs, hc])
  | slice =>
    refine ⟨?_, ⟨hes, hle, hls, hn, fun r hr => hk r hr⟩, le_refl _, fun q hq => .inl hq, fun q _ hq => ?_⟩
    · simp only [stepH, stepV, Session.seen, Session.mk.injEq]
      exact ⟨Heap.write_data _ _ hes, Heap.write_same .., map_seen_congr fun e he => Heap.write_data _ _ (hls e he)⟩
    · exact Heap.write_data _ _ fun hc => hq (by simp [Session.refs, hc])
  | restart =>
    have hmap : (s.ests.map Est.restart).map Est.pos = s.ests.map Est.pos := by
      rw [List.map_map]; exact List.map_congr_left fun e _ => pos_restart e
    have hrefs : (stepH .restart (h, s)).2.refs = s.refs := by simp only [stepH, Session.refs, hmap]
    refine ⟨?_, ⟨hes, ?_, ?_, ?_, fun r hr => hk r (by rw [hrefs] at hr; exact hr)⟩, le_refl _,
      fun q hq => .inl (by rw [hrefs] at hq; exact hq), fun q _ hq => ?_⟩
    · simp only [stepH, stepV, Session.seen, Session.mk.injEq]
      refine ⟨Heap.write_data _ _ hes, Heap.write_same .., ?_⟩
      rw [List.map_map, List.map_map]
      refine List.map_congr_left fun e he => ?_
      simp only [Function.comp, map_restart]
      rw [e.map_congr (Heap.write_data _ _ (hls e he))]
    · intro e he
      obtain ⟨e', he', rfl⟩ := List.mem_map.1 (show e ∈ s.ests.map Est.restart from he)
      rw [pos_restart]; exact hle e' he'
    · intro e he
      obtain ⟨e', he', rfl⟩ := List.mem_map.1 (show e ∈ s.ests.map Est.restart from he)
      rw [pos_restart]; exact hls e' he'
    · show (s.ests.map Est.restart).Pairwise _
      rw [List.pairwise_map]
      exact hn.imp fun {a b} hab hc => by
        rw [pos_restart, pos_restart] at hc
        rw [isKalman_restart, isKalman_restart]; exact hab hc
    · exact Heap.write_data _ _ fun hc => hq (by simp [Session.refs, hc])
  | evaluate xs => exact evaluate_spec xs h s hle (fun e he hc => absurd hc (hls e he)) hn hk

/-- **C183** for objects that were given Series of their own (the Kalman estimators may share one): after any history every object sees what it would
see if Series were values, and no other Series of the user has changed. -/
theorem objects_do_not_interfere_partial (ops : List Op) (h : Heap) (s : Session Nat) (hs : Separate h s) :
    (runH ops (h, s)).2.seen (runH ops (h, s)).1 = runV ops (s.seen h) ∧
      ∀ q, q < h.next → q ∉ s.refs → (runH ops (h, s)).1.data q = h.data q := by
  induction ops generalizing h s with
  | nil => exact ⟨rfl, fun q _ _ => rfl⟩
  | cons op ops ih =>
    obtain ⟨h1, h2, h3, h4, h5⟩ := step_spec op h s hs
    obtain ⟨g1, g2⟩ := ih _ _ h2
    refine ⟨?_, fun q hq hq' => ?_⟩
    · show (runH ops (stepH op (h, s))).2.seen (runH ops (stepH op (h, s))).1 = runV ops (stepV op (s.seen h))
      rw [← h1]; exact g1
    · show (runH ops (stepH op (h, s))).1.data q = h.data q
      rw [g2 q (lt_of_lt_of_le hq h3) fun hc => ?_, h5 q hq hq']
      rcases h4 q hc with h' | h'
      · exact hq' h'
      · omega

theorem moves_tutorial (ms : List Series) (h : Heap) (s : Session Nat) (hs : Tutorial h s) :
    (runH (ms.map .move) (h, s)).2 = s ∧ s.seen (runH (ms.map .move) (h, s)).1 = runV (ms.map .move) (s.seen h) ∧
      Tutorial (runH (ms.map .move) (h, s)).1 s ∧ (runH (ms.map .move) (h, s)).1.next = h.next ∧
      ∀ q, q ∉ s.refs → (runH (ms.map .move) (h, s)).1.data q = h.data q := by
  induction ms generalizing h with
  | nil => exact ⟨rfl, rfl, hs, rfl, fun q _ => rfl⟩
  | cons m ms ih =>
    obtain ⟨h1, h2, h3, h4, h5⟩ := ih (h.write s.exp (overwrite (h.data s.exp) m)) ⟨hs.expSolver, hs.exp, hs.kalman, hs.known⟩
    refine ⟨h1, ?_, h3, h4, fun q hq => ?_⟩
    · have : s.seen (h.write s.exp (overwrite (h.data s.exp) m)) = stepV (.move m) (s.seen h) := by
        simp only [stepV, Session.seen, Session.mk.injEq]
        exact ⟨Heap.write_same .., Heap.write_data _ _ (Ne.symm hs.expSolver), map_seen_congr fun e he => Heap.write_data _ _ (hs.exp e he)⟩
      rw [this] at h2
      exact h2
    · exact (h5 q hq).trans (Heap.write_data _ _ fun hc => hq (by simp [Session.refs, hc]))

/-- **C183** for the way in which the tutorial shares Series: the Kalman estimators and the solver get the same one.  If the first thing that happens to
the solver is an evaluation, then everything goes as if each had its own. -/
theorem objects_do_not_interfere_tutorial_partial (ms : List Series) (xs : List (ℝ × ℝ)) (ops : List Op) (h : Heap) (s : Session Nat)
    (hs : Tutorial h s) :
    (runH (ms.map .move ++ .evaluate xs :: ops) (h, s)).2.seen (runH (ms.map .move ++ .evaluate xs :: ops) (h, s)).1 =
        runV (ms.map .move ++ .evaluate xs :: ops) (s.seen h) ∧
      ∀ q, q < h.next → q ∉ s.refs → (runH (ms.map .move ++ .evaluate xs :: ops) (h, s)).1.data q = h.data q := by
  obtain ⟨h1, h2, h3, h4, h5⟩ := moves_tutorial ms h s hs
  have e1 : runH (ms.map .move ++ .evaluate xs :: ops) (h, s) = runH ops (stepH (.evaluate xs) (runH (ms.map .move) (h, s))) := by
    simp [runH, List.foldl_append]
  have e2 : runV (ms.map .move ++ .evaluate xs :: ops) (s.seen h) = runV ops (stepV (.evaluate xs) (runV (ms.map .move) (s.seen h))) := by
    simp [runV, List.foldl_append]
  rw [e1, e2, ← h2]
  generalize runH (ms.map .move) (h, s) = c at h1 h2 h3 h4 h5
  obtain ⟨h', s'⟩ := c
  simp only at h1 h2 h3 h4 h5
  subst h1
  have hn : s'.ests.Pairwise fun a b => a.pos = b.pos → a.isKalman ∧ b.isKalman :=
    List.pairwise_of_forall_mem_list fun a ha b hb _ => ⟨hs.kalman a ha, hs.kalman b hb⟩
  obtain ⟨g1, g2, g3, g4, g5⟩ := evaluate_spec xs h' s' h3.exp (fun e he _ => h3.kalman e he) hn h3.known
  obtain ⟨f1, f2⟩ := objects_do_not_interfere_partial ops _ _ g2
  refine ⟨by rw [← g1]; exact f1, fun q hq hq' => ?_⟩
  have := f2 q (by omega) fun hc => ?_
  · exact this.trans ((g5 q (by omega) hq').trans (h5 q hq'))
  · rcases g4 q hc with h'' | h''
    · exact hq' h''
    · omega

/-- **C183** fails for Series that are shared, 3.  With the Series of the tutorial and a restart before the first evaluation: the position of the estimator
moves with that of the solver to the present voltages.  With a Series of its own it stays where it is (C50). -/
theorem objects_do_not_interfere_restart_refuted (ms : List Series) (h : Heap) (exp r : Nat) (v : Option ℝ)
    (fed : List (List (String × ℝ) × ℝ × ℝ)) (hne : exp ≠ r) :
    ((runH (ms.map .move ++ [.restart]) (h, ⟨exp, r, [.kalman r v fed]⟩)).2.seen
        (runH (ms.map .move ++ [.restart]) (h, ⟨exp, r, [.kalman r v fed]⟩)).1).ests =
      [.kalman (overwrite (h.data r) (ms.foldl overwrite (h.data exp))) none fed] ∧
    (runV (ms.map .move ++ [.restart]) (Session.seen h ⟨exp, r, [.kalman r v fed]⟩)).ests = [.kalman (h.data r) none fed] := by
  have key : ∀ (ms : List Series) (h : Heap), (runH (ms.map .move) (h, ⟨exp, r, [.kalman r v fed]⟩)).2 = ⟨exp, r, [.kalman r v fed]⟩ ∧
      (runH (ms.map .move) (h, ⟨exp, r, [.kalman r v fed]⟩)).1.data exp = ms.foldl overwrite (h.data exp) ∧
      (runH (ms.map .move) (h, ⟨exp, r, [.kalman r v fed]⟩)).1.data r = h.data r := by
    intro ms
    induction ms with
    | nil => exact fun h => ⟨rfl, rfl, rfl⟩
    | cons m ms ih =>
      intro h
      obtain ⟨h1, h2, h3⟩ := ih (h.write exp (overwrite (h.data exp) m))
      refine ⟨h1, ?_, ?_⟩
      · rw [Heap.write_same] at h2
        exact h2
      · rw [Heap.write_data _ _ (Ne.symm hne)] at h3
        exact h3
  obtain ⟨h1, h2, h3⟩ := key ms h
  have e1 : runH (ms.map .move ++ [.restart]) (h, ⟨exp, r, [.kalman r v fed]⟩) =
      stepH .restart (runH (ms.map .move) (h, ⟨exp, r, [.kalman r v fed]⟩)) := by
    simp [runH, List.foldl_append]
  have e2 : runV (ms.map .move ++ [.restart]) (Session.seen h ⟨exp, r, [.kalman r v fed]⟩) =
      stepV .restart (runV (ms.map .move) (Session.seen h ⟨exp, r, [.kalman r v fed]⟩)) := by
    simp [runV, List.foldl_append]
  have hv : ∀ (ms : List Series) (s : Session Series), (runV (ms.map .move) s).ests = s.ests := by
    intro ms
    induction ms with
    | nil => exact fun _ => rfl
    | cons m ms ih => exact fun s => ih ⟨overwrite s.exp m, s.solver, s.ests⟩
  constructor
  · rw [e1]
    generalize runH (ms.map .move) (h, ⟨exp, r, [.kalman r v fed]⟩) = c at h1 h2 h3
    obtain ⟨h', s'⟩ := c
    simp only at h1 h2 h3
    subst h1
    simp [stepH, Session.seen, Est.restart, Est.map, Heap.write_same, h2, h3]
  · rw [e2]
    show ((runV (ms.map .move) (Session.seen h ⟨exp, r, [.kalman r v fed]⟩)).ests).map Est.restart = _
    rw [hv]
    simp [Session.seen, Est.map, Est.restart]

theorem moves_exp (ms : List Series) (h : Heap) (s : Session Nat) :
    (runH (ms.map .move) (h, s)).2 = s ∧ (runH (ms.map .move) (h, s)).1.next = h.next := by
  induction ms generalizing h with
  | nil => exact ⟨rfl, rfl⟩
  | cons m ms ih => exact ih (h.write s.exp (overwrite (h.data s.exp) m))

theorem moves_value (ms : List Series) (s : Session Series) :
    runV (ms.map .move) s = ⟨ms.foldl overwrite s.exp, s.solver, s.ests⟩ := by
  induction ms generalizing s with
  | nil => rfl
  | cons m ms ih => exact ih ⟨overwrite s.exp m, s.solver, s.ests⟩

theorem short_self (q : Series) : Short (diff (pick q.index q) q) := by
  have h0 : ∀ e ∈ diff (pick q.index q) q, e.2 = 0 := by
    intro e he
    simp only [diff, pick, List.mem_filterMap, List.mem_map] at he
    obtain ⟨a, ⟨g, -, rfl⟩, h⟩ := he
    simp only at h
    cases hv : q.val g with
    | none => simp [hv] at h
    | some x =>
      simp [hv] at h
      rw [← h]
  have hsum : ((diff (pick q.index q) q).map fun e => e.2 ^ 2).sum = 0 := by
    apply List.sum_eq_zero
    intro x hx
    obtain ⟨e, he, rfl⟩ := List.mem_map.1 hx
    rw [h0 e he]; norm_num
  unfold Short
  rw [hsum]
  norm_num

/-- **C183** fails for Series that are shared, 1.  A `KalmanGradientEstimator` that was given a current value and, as its position, the Series that the
`TestExperiment` was given as its voltages: whatever voltages are set, the next measurement does not enter the filter, because the experiment has moved
the position of the estimator along.  With a copy of the Series it does, if the voltages have changed noticeably. -/
theorem objects_do_not_interfere_kalman_refuted (ms : List Series) (x : ℝ × ℝ) (h : Heap) (exp solver : Nat) (v : ℝ)
    (fed : List (List (String × ℝ) × ℝ × ℝ)) (hk : exp < h.next) :
    (∃ r, (runH (ms.map .move ++ [.evaluate [x]]) (h, ⟨exp, solver, [.kalman exp (some v) fed]⟩)).2.ests = [.kalman r (some x.1) fed]) ∧
      (¬ Short (diff (pick (h.data exp).index (ms.foldl overwrite (h.data exp))) (h.data exp)) →
        ∃ p, (runV (ms.map .move ++ [.evaluate [x]]) ⟨h.data exp, h.data solver, [.kalman (h.data exp) (some v) fed]⟩).ests =
          [.kalman p (some x.1) (fed ++ [(diff (pick (h.data exp).index (ms.foldl overwrite (h.data exp))) (h.data exp), x.1 - v, x.2)])]) := by
  constructor
  · obtain ⟨h1, h2⟩ := moves_exp ms h ⟨exp, solver, [.kalman exp (some v) fed]⟩
    have hrun : runH (ms.map .move ++ [.evaluate [x]]) (h, ⟨exp, solver, [.kalman exp (some v) fed]⟩) =
        stepH (.evaluate [x]) (runH (ms.map .move) (h, ⟨exp, solver, [.kalman exp (some v) fed]⟩)) := by
      simp [runH, List.foldl_append]
    rw [hrun]
    generalize runH (ms.map .move) (h, ⟨exp, solver, [.kalman exp (some v) fed]⟩) = c at h1 h2
    obtain ⟨h', s'⟩ := c
    simp only at h1 h2
    subst h1
    have hk' : exp < h'.next := by omega
    refine ⟨h'.next + 1, ?_⟩
    have he : (h'.alloc (h'.data exp)).data exp = h'.data exp := Heap.alloc_data _ _ hk'
    have hn : (h'.alloc (h'.data exp)).data h'.next = h'.data exp := Heap.alloc_new ..
    have hs : Short (diff (pick ((h'.alloc (h'.data exp)).data exp).index ((h'.alloc (h'.data exp)).data h'.next))
        ((h'.alloc (h'.data exp)).data exp)) := by
      rw [he, hn]; exact short_self _
    simp only [stepH, updateAllH, updateH, if_pos hs]
    rfl
  · intro hs
    have hrun : runV (ms.map .move ++ [.evaluate [x]]) ⟨h.data exp, h.data solver, [.kalman (h.data exp) (some v) fed]⟩ =
        stepV (.evaluate [x]) (runV (ms.map .move) ⟨h.data exp, h.data solver, [.kalman (h.data exp) (some v) fed]⟩) := by
      simp [runV, List.foldl_append]
    rw [hrun, moves_value]
    refine ⟨pick (h.data exp).index (ms.foldl overwrite (h.data exp)), ?_⟩
    simp only [stepV, updateAllV, updateV, if_neg hs]

/-- **C183** fails for Series that are shared, 2.  Two symmetric `FiniteDifferencesGradientEstimator`s that were given the same Series without any voltage:
after the first measurement the first one knows its position and has stored nothing, as it should, but the second one finds the position known and
stores the measurement as the first of a pair.  With Series of their own neither stores anything. -/
theorem objects_do_not_interfere_differences_refuted (x y : ℝ × ℝ) (h : Heap) (exp solver r : Nat) (full : Nat) (hr : r < h.next)
    (hblank : blank (h.data r) = true) (hfull : 0 < full) (g : String) (hg : g ∈ (h.data r).index)
    (hv : ∃ z, (h.data exp).val g = some z) (hge : g ∈ (h.data exp).index) :
    (∃ m, (runH [.evaluate [x, y]] (h, ⟨exp, solver, [.fd r true full [], .fd r true full []]⟩)).2.ests =
        [.fd r true full [], .fd r true full [(m, y.1, y.2)]]) ∧
      ∃ p, (runV [.evaluate [x, y]] ⟨h.data exp, h.data solver, [.fd (h.data r) true full [], .fd (h.data r) true full []]⟩).ests =
        [.fd p true full [], .fd p true full []] := by
  constructor
  · have d1 : (h.alloc (h.data exp)).data r = h.data r := Heap.alloc_data _ _ hr
    have d2 : (h.alloc (h.data exp)).data h.next = h.data exp := Heap.alloc_new ..
    have hnb : blank (overwrite (h.data r) (common (h.data r) (h.data exp))) = false := by
      rw [Bool.eq_false_iff]
      intro hb
      have hall := List.all_eq_true.1 hb
      obtain ⟨⟨a, w⟩, hm, ha⟩ := List.mem_map.1 hg
      simp only at ha
      subst ha
      obtain ⟨z, hz⟩ := hv
      have hmem : a ∈ (h.data r).index.filter fun g => (h.data exp).index.contains g := by simp [hg, hge]
      have hc : (common (h.data r) (h.data exp)).index.contains a = true := by
        simp only [common, pick, Series.index_map_mk]
        simpa using ⟨hg, hge⟩
      have hval : (common (h.data r) (h.data exp)).val a = some z := by
        rw [common, pick, Series.val_map_mk, if_pos hmem, hz]
      have := hall (a, some z) (by
        unfold overwrite
        refine List.mem_map.2 ⟨(a, w), hm, ?_⟩
        rw [if_pos hc, hval])
      simp at this
    have hw := Heap.write_same (h.alloc (h.data exp)) (overwrite (h.data r) (common (h.data r) (h.data exp))) r
    simp only [runH, List.foldl_cons, List.foldl_nil, stepH, updateAllH, updateH, d1, d2, hblank, if_true, hw, hnb, Bool.false_eq_true, if_false,
      List.length_nil, hfull, List.nil_append]
    exact ⟨_, rfl⟩
  · refine ⟨overwrite (h.data r) (common (h.data r) (h.data exp)), ?_⟩
    simp only [runV, List.foldl_cons, List.foldl_nil, stepV, updateAllV, updateV, hblank, if_true]

/-- A session with one gate. -/
def sampleHeap : Heap := ⟨fun r => if r = 2 then [("N", none)] else [("N", some 0)], 5⟩

/-- An experiment, a solver, two Kalman estimators that share a Series and finite differences. -/
example : Separate sampleHeap ⟨0, 1, [.kalman 3 (some 5) [], .kalman 3 none [], .fd 2 true 2 []]⟩ :=
  ⟨by decide, by simp [Est.pos], by simp [Est.pos], by simp [Est.pos, Est.isKalman], by simp [Session.refs, Est.pos, sampleHeap]⟩

/-- The set up of the tutorial: solver and Kalman estimators share a Series. -/
example : Tutorial sampleHeap ⟨0, 1, [.kalman 1 (some 1) [], .kalman 1 (some 1) []]⟩ :=
  ⟨by decide, by simp [Est.pos], by simp [Est.isKalman], by simp [Session.refs, Est.pos, sampleHeap]⟩

/-- A move by 1 V is noticeable. -/
example : ¬ Short (diff (pick (sampleHeap.data 0).index ([[("N", some 1)]].foldl overwrite (sampleHeap.data 0))) (sampleHeap.data 0)) := by
  have : diff (pick (sampleHeap.data 0).index ([[("N", some 1)]].foldl overwrite (sampleHeap.data 0))) (sampleHeap.data 0) = [("N", 1)] := by
    simp [diff, pick, sampleHeap, overwrite, Series.index, Series.val]
  rw [this]
  unfold Short
  norm_num

/-- The hypotheses of the second refutation. -/
example : blank (sampleHeap.data 2) = true ∧ "N" ∈ (sampleHeap.data 2).index ∧ (∃ z, (sampleHeap.data 0).val "N" = some z) := by
  refine ⟨by simp [sampleHeap, blank], by simp [sampleHeap, Series.index], 0, by simp [sampleHeap, Series.val]⟩

end Qtune.Sharing
