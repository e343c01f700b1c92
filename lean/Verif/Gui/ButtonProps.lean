import Verif.Gui.ButtonModel

/-!
# The buttons and the state of the worker (C163)
-/

namespace Qtune.Gui.Buttons

/-! ## Specification -/

/-- Pause can be clicked if the worker was started, Start and Step if it was not. -/
def Consistent (s : State) : Prop :=
  s.pauseButton = s.continuous ∧ s.startButton = !s.continuous ∧ s.stepButton = !s.continuous

/-- No thread executes a method. -/
def AtRest (s : State) : Prop := s.gui = [] ∧ s.worker = []

/-- The worker does not end an iteration with `pause()` while the other thread executes a method, and no button is clicked while it does. -/
def Apart (as : List Act) : Prop :=
  ∀ p, p <+: as → (run init p).gui = [] ∨ (∀ w ∈ (run init p).worker, w = .stepped false ∨ w = .idle)

/-! ## Lemmas -/

/-- The assignments do not depend on what is left. -/
def SameFlags (s t : State) : Prop := s.continuous = t.continuous ∧ s.startButton = t.startButton ∧ s.stepButton = t.stepButton ∧
  s.pauseButton = t.pauseButton

theorem SameFlags.apply {s t : State} (h : SameFlags s t) (w : Write) : SameFlags (w.apply s) (w.apply t) := by
  obtain ⟨h1, h2, h3, h4⟩ := h
  cases w <;> simp only [SameFlags, Write.apply, h1, h2, h3, h4, and_self]

theorem SameFlags.fold (ws : List Write) : ∀ {s t : State}, SameFlags s t → SameFlags (ws.foldl Write.apply s) (ws.foldl Write.apply t) := by
  induction ws with
  | nil => intro s t h; exact h
  | cons w ws ih => intro s t h; exact ih (h.apply w)

theorem SameFlags.consistent {s t : State} (h : SameFlags s t) (hs : Consistent s) : Consistent t := by
  obtain ⟨h1, h2, h3, h4⟩ := h
  obtain ⟨c1, c2, c3⟩ := hs
  exact ⟨by rw [← h4, ← h1, c1], by rw [← h2, ← h1, c2], by rw [← h3, ← h1, c3]⟩

theorem consistent_fold (ws : List Write) {s t : State} (hs : Consistent (ws.foldl Write.apply s)) (h : SameFlags s t) :
    Consistent (ws.foldl Write.apply t) := (SameFlags.fold ws h).consistent hs

theorem plain_fold {ws : List Write} (h : ∀ w ∈ ws, w = .stepped false ∨ w = .idle) (s : State) :
    SameFlags (ws.foldl Write.apply s) s := by
  induction ws generalizing s with
  | nil => exact ⟨rfl, rfl, rfl, rfl⟩
  | cons w ws ih =>
    obtain ⟨h1, h2, h3, h4⟩ := ih (fun x hx => h x (List.mem_cons_of_mem _ hx)) (w.apply s)
    rcases h w (by simp) with rfl | rfl
    · exact ⟨h1, h2, h3, h4⟩
    · exact ⟨h1, h2, h3, h4⟩

/-- The assignments that are left at the end of an iteration without `pause()`. -/
def Plain (ws : List Write) : Prop := ∀ w ∈ ws, w = .stepped false ∨ w = .idle

/-- The buttons are right as soon as the methods have ended. -/
def Inv (s : State) : Prop :=
  (s.gui = [] → Consistent (s.worker.foldl Write.apply s)) ∧ (Plain s.worker → Consistent (s.gui.foldl Write.apply s))

theorem SameFlags.symm {s t : State} (h : SameFlags s t) : SameFlags t s := ⟨h.1.symm, h.2.1.symm, h.2.2.1.symm, h.2.2.2.symm⟩

theorem Inv.init : Inv init := by
  constructor <;> intro _ <;> exact ⟨rfl, rfl, rfl⟩

theorem Inv.click {s : State} (hs : Inv s) (enabled : Bool) (ws : List Write) (hne : ws ≠ [])
    (hws : ∀ t : State, ((s.gui = [] ∧ Plain s.worker → Consistent s) → SameFlags t s → (s.gui = [] ∧ Plain s.worker) → Consistent (ws.foldl Write.apply t))) :
    Inv (click s enabled ws) := by
  unfold Buttons.click
  split
  · rename_i h
    simp only [Bool.and_eq_true, List.isEmpty_iff] at h
    refine ⟨fun hg => absurd hg hne, fun hp => ?_⟩
    refine hws _ (fun h' => ?_) ⟨rfl, rfl, rfl, rfl⟩ ⟨h.2, hp⟩
    have := hs.2 h'.2
    rwa [h'.1] at this
  · exact hs

theorem Inv.step {s : State} (hs : Inv s) (hap : s.gui = [] ∨ Plain s.worker) (a : Act)
    (hap' : (Buttons.step s a).gui = [] ∨ Plain (Buttons.step s a).worker) : Inv (Buttons.step s a) := by
  cases a with
  | clickStart =>
    refine hs.click _ _ (by simp [startWrites]) fun t _ _ _ => ⟨rfl, rfl, rfl⟩
  | clickStep =>
    refine hs.click _ _ (by simp [stepWrites]) fun t h1 h2 h3 => ?_
    exact (h2.symm).consistent (h1 h3)
  | clickPause =>
    refine hs.click _ _ (by simp [pauseWrites]) fun t _ _ _ => ⟨rfl, rfl, rfl⟩
  | guiWrite =>
    unfold Buttons.step
    dsimp only
    split
    · exact hs
    · rename_i w ws hw
      have hpl : Plain s.worker := by
        rcases hap with h | h
        · rw [h] at hw; cases hw
        · exact h
      have h2 := hs.2 hpl
      rw [hw, List.foldl_cons] at h2
      have hwk : ((w.apply s)).worker = s.worker := by cases w <;> rfl
      have h3 : Consistent (ws.foldl Write.apply { w.apply s with gui := ws }) :=
        consistent_fold ws h2 ⟨rfl, rfl, rfl, rfl⟩
      refine ⟨fun hg => ?_, fun _ => h3⟩
      dsimp only at hg ⊢
      subst hg
      rw [hwk]
      exact (plain_fold hpl _).symm.consistent h3
  | workerBegin =>
    unfold Buttons.step
    dsimp only
    split
    · exact ⟨fun hg => consistent_fold s.worker (hs.1 hg) ⟨rfl, rfl, rfl, rfl⟩,
        fun hp => consistent_fold s.gui (hs.2 hp) ⟨rfl, rfl, rfl, rfl⟩⟩
    · exact hs
  | workerEnd pauses =>
    revert hap'
    unfold Buttons.step
    dsimp only
    split
    · rename_i h
      simp only [Bool.and_eq_true, List.isEmpty_iff] at h
      intro hap'
      have hpl : Plain s.worker := by rw [h.2]; intro w hw; cases hw
      have h2 := hs.2 hpl
      cases pauses with
      | true =>
        have hn : ¬ Plain (pauseWrites ++ [.stepped false, .idle]) := by
          intro hp
          have := hp (.continuous false) (by simp [pauseWrites])
          simp at this
        refine ⟨fun _ => ⟨rfl, rfl, rfl⟩, fun hp => absurd hp hn⟩
      | false =>
        refine ⟨fun hg => ?_, fun _ => consistent_fold s.gui h2 ⟨rfl, rfl, rfl, rfl⟩⟩
        dsimp only at hg
        rw [hg] at h2
        exact SameFlags.consistent (s := s) ⟨rfl, rfl, rfl, rfl⟩ h2
    · intro _; exact hs
  | workerWrite =>
    unfold Buttons.step
    dsimp only
    split
    · exact hs
    · rename_i w ws hw
      have hgk : (w.apply s).gui = s.gui := by cases w <;> rfl
      have first : s.gui = [] → Consistent (ws.foldl Write.apply { w.apply s with worker := ws }) := by
        intro hg
        have h1 := hs.1 hg
        rw [hw, List.foldl_cons] at h1
        exact consistent_fold ws h1 ⟨rfl, rfl, rfl, rfl⟩
      refine ⟨fun hg => ?_, fun hp => ?_⟩
      · dsimp only at hg
        rw [hgk] at hg
        exact first hg
      · dsimp only at hp ⊢
        have key : Consistent (s.gui.foldl Write.apply { w.apply s with worker := ws }) := ?_
        · simpa only [hgk] using key
        by_cases hpl : Plain s.worker
        · have hww : w = .stepped false ∨ w = .idle := hpl w (by rw [hw]; simp)
          have hsame : SameFlags s { w.apply s with worker := ws } := by
            rcases hww with rfl | rfl <;> exact ⟨rfl, rfl, rfl, rfl⟩
          exact consistent_fold s.gui (hs.2 hpl) hsame
        · have hg : s.gui = [] := hap.resolve_right hpl
          rw [hg]
          exact (plain_fold hp _).consistent (first hg)

theorem Inv.run (as : List Act) : ∀ (s : State), Inv s →
    (∀ p, p <+: as → (Buttons.run s p).gui = [] ∨ Plain (Buttons.run s p).worker) → Inv (Buttons.run s as) := by
  induction as with
  | nil => intro s hs _; exact hs
  | cons a as ih =>
    intro s hs hap
    refine ih _ (hs.step (hap [] (List.nil_prefix)) a (hap [a] ⟨as, rfl⟩)) ?_
    rintro p ⟨q, rfl⟩
    exact hap (a :: p) ⟨q, rfl⟩

/-! ## Theorems -/

/-- **Partial C163** — if the worker does not call `pause()` while the thread of the user interface executes a method, and no button is clicked while it
does, then whenever no method is executed the buttons show whether the worker was started. -/
theorem buttons_right_partial {as : List Act} (hap : Apart as) (hrest : AtRest (run init as)) : Consistent (run init as) := by
  have h := (Inv.run as init Inv.init hap).1 hrest.1
  rwa [hrest.2] at h

/-- **C163 refuted, tuning that cannot be paused** — whenever the worker is in an iteration that was not ordered by Start, the iteration can end with
`pause()` such that Start, clicked meanwhile, leaves the worker started, with the button Pause disabled: until Start is clicked again, it
starts further iterations, and no click on Pause has an effect. -/
theorem cannot_pause_refuted (s : State) (hrest : AtRest s) (hbusy : s.busy = true) (hstart : s.startButton = true) :
    ∃ as, let t := run s as
      AtRest t ∧ t.busy = false ∧ t.continuous = true ∧ t.pauseButton = false ∧ t.startButton = true ∧
        step t .clickPause = t ∧ (step t .workerBegin).busy = true := by
  obtain ⟨c, st, b1, b2, b3, bu, g, w⟩ := s
  obtain ⟨rfl, rfl⟩ := hrest
  dsimp only at hbusy hstart
  subst hbusy hstart
  exact ⟨[.workerEnd true, .workerWrite, .workerWrite, .clickStart, .guiWrite, .guiWrite, .guiWrite, .guiWrite,
    .workerWrite, .workerWrite, .workerWrite, .workerWrite, .workerWrite], ⟨rfl, rfl⟩, rfl, rfl, rfl, rfl, rfl, rfl⟩

/-- **C163 refuted, a start that is lost** — or Start leaves the worker idle, with Start and Step disabled: until Pause is clicked nothing happens. -/
theorem lost_start_refuted (s : State) (hrest : AtRest s) (hbusy : s.busy = true) (hstart : s.startButton = true) :
    ∃ as, let t := run s as
      AtRest t ∧ t.busy = false ∧ t.continuous = false ∧ t.stepped = false ∧ t.pauseButton = true ∧
        ∀ as', (∀ a ∈ as', a ≠ .clickPause) → run t as' = t := by
  obtain ⟨c, st, b1, b2, b3, bu, g, w⟩ := s
  obtain ⟨rfl, rfl⟩ := hrest
  dsimp only at hbusy hstart
  subst hbusy hstart
  refine ⟨[.workerEnd true, .clickStart, .guiWrite, .workerWrite, .workerWrite, .workerWrite, .workerWrite, .workerWrite,
    .guiWrite, .guiWrite, .guiWrite, .workerWrite, .workerWrite], ⟨rfl, rfl⟩, rfl, rfl, rfl, rfl, ?_⟩
  intro as'
  induction as' with
  | nil => intro _; rfl
  | cons a as' ih =>
    intro h
    have h1 := ih fun x hx => h x (List.mem_cons_of_mem _ hx)
    have hstep : ∀ a, a ≠ Act.clickPause → step ⟨false, false, false, false, true, false, [], []⟩ a = ⟨false, false, false, false, true, false, [], []⟩ := by
      intro a ha
      cases a <;> first | rfl | exact absurd rfl ha
    have h2 := hstep a (h a (by simp))
    exact (congrArg (fun t => run t as') h2).trans h1

/-- What a click orders, if the other thread does nothing meanwhile: after a click on Step or Start, when it can be pressed, the worker begins an
iteration if it was idle; after a click on Pause, an idle worker does not begin one.  Nothing is ordered at the beginning. -/
theorem orders_partial (s : State) (hrest : AtRest s) (hbusy : s.busy = false) :
    (s.stepButton = true → (run s [.clickStep, .guiWrite, .workerBegin]).busy = true) ∧
    (s.startButton = true → (run s [.clickStart, .guiWrite, .guiWrite, .guiWrite, .guiWrite, .workerBegin]).busy = true) ∧
    (s.pauseButton = true → (run s [.clickPause, .guiWrite, .guiWrite, .guiWrite, .guiWrite, .guiWrite, .workerBegin]).busy = false) ∧
    (init.busy = false ∧ (run init [.workerBegin]).busy = false) := by
  obtain ⟨c, st, b1, b2, b3, bu, g, w⟩ := s
  obtain ⟨rfl, rfl⟩ := hrest
  dsimp only at hbusy
  subst hbusy
  refine ⟨?_, ?_, ?_, rfl, rfl⟩
  · rintro rfl
    cases c <;> rfl
  · rintro rfl
    rfl
  · rintro rfl
    rfl

/-! ## The hypotheses can be met -/

/-- At the beginning the worker is idle, and Start and Step can be pressed; after Start, Pause can. -/
example : AtRest init ∧ init.stepButton = true ∧ init.startButton = true ∧
    (run init [.clickStart, .guiWrite, .guiWrite, .guiWrite, .guiWrite]).pauseButton = true := ⟨⟨rfl, rfl⟩, rfl, rfl, rfl⟩

/-- Start, an iteration that pauses, then Step. -/
def exampleRun : List Act :=
  [.clickStart, .guiWrite, .guiWrite, .guiWrite, .guiWrite, .workerBegin, .workerEnd true, .workerWrite, .workerWrite, .workerWrite, .workerWrite,
    .workerWrite, .workerWrite, .workerWrite, .clickStep, .guiWrite]

theorem apart_of_take {as : List Act}
    (h : ∀ n, n ≤ as.length → (run init (as.take n)).gui = [] ∨ Plain (run init (as.take n)).worker) : Apart as := by
  rintro p ⟨q, rfl⟩
  have := h p.length (by simp)
  rwa [List.take_left'] at this
  rfl

example : Apart exampleRun ∧ AtRest (run init exampleRun) ∧ (run init exampleRun).stepped = true ∧ Consistent (run init exampleRun) := by
  have hap : Apart exampleRun := by
    refine apart_of_take fun n hn => ?_
    have hn' : n < 17 := Nat.lt_succ_of_le hn
    unfold Plain
    revert n
    decide
  exact ⟨hap, ⟨rfl, rfl⟩, rfl, buttons_right_partial hap ⟨rfl, rfl⟩⟩

/-- The state after a click on Step, in the iteration it orders, is reachable. -/
example : let s := run init [.clickStep, .guiWrite, .workerBegin]
    AtRest s ∧ s.busy = true ∧ s.startButton = true := ⟨⟨rfl, rfl⟩, rfl, rfl⟩

end Qtune.Gui.Buttons
