import Verif.Autotuner.RaceModel
import Verif.Autotuner.Props
import Mathlib.Data.List.Induction

/-! # Calls of other threads while the worker iterates (C142) -/

namespace Qtune.Autotuner

variable {W X V P C : Type}

/-! ## The two parts of `iterate` -/

/-- The two parts of `iterate`, one after the other, are `iterate`: same state, same log. -/
theorem begin_end_eq_iterate (H : Hierarchy W X V P C) (save : Except PyErr Unit)
    (s : State W X V) :
    (iterate H save s).1 = (match begin_ H s with
      | (s', _, .ok c) => (end_ save s' c).1
      | (s', _, .error _) => s') ∧
    (iterate H save s).2.1 = (match begin_ H s with
      | (s', log, .ok c) => log ++ (end_ save s' c).2
      | (_, log, .error _) => log) := by
  unfold iterate begin_
  cases H.ready s.tuners s.expt s.pending with
  | error e => exact ⟨rfl, rfl⟩
  | ok b =>
    cases b with
    | false => exact ⟨rfl, rfl⟩
    | true =>
      dsimp only
      by_cases hc : isComplete H s = true
      · rw [if_pos hc, if_pos hc]; exact ⟨rfl, rfl⟩
      · rw [if_neg hc, if_neg hc]
        cases hp : s.pending with
        | some v =>
          dsimp only
          by_cases hn : H.hasNaN v = true
          · rw [if_pos hn, if_pos hn]; exact ⟨rfl, rfl⟩
          · rw [if_neg hn, if_neg hn]
            rcases H.setVolt v s.expt with ⟨x, (e | u)⟩
            · exact ⟨rfl, rfl⟩
            · cases save <;> exact ⟨rfl, rfl⟩
        | none =>
          dsimp only
          by_cases hl : H.len ≤ s.index
          · rw [if_pos hl, if_pos hl]; exact ⟨rfl, rfl⟩
          · rw [if_neg hl, if_neg hl]
            by_cases hs : s.status = false
            · rw [if_pos hs, if_pos hs]
              rcases H.isTuned s.index (H.read s.expt) s.tuners s.expt with
                ⟨⟨w, x⟩, (e | (_ | _))⟩
              · exact ⟨rfl, rfl⟩
              · cases save <;> exact ⟨rfl, rfl⟩
              · cases save <;> exact ⟨rfl, rfl⟩
            · rw [if_neg hs, if_neg hs]
              rcases H.nextVolt s.index (H.tunedParams s.tuners s.index) s.tuners with
                ⟨w, (e | v)⟩
              · exact ⟨rfl, rfl⟩
              · cases save <;> exact ⟨rfl, rfl⟩

/-- A call that got past its first part is running. -/
theorem begin_ok_ne_idle (H : Hierarchy W X V P C) (s s' : State W X V)
    (log : List (Event W V P)) (c : Called V P) (h : begin_ H s = (s', log, .ok c)) :
    c ≠ .idle := by
  unfold begin_ at h
  repeat' split at h
  all_goals first
    | (simp at h; done)
    | (simp only [Prod.mk.injEq, Except.ok.injEq] at h
       obtain ⟨-, -, rfl⟩ := h
       simp)

/-- The turns before, seen as calls of the autotuner: what has been done so far, and, if a call of `iterate` is
running, what its first part did. -/
def Sim (H : Hierarchy W X V P C) (s₀ s : State W X V) (c : Called V P)
    (log : List (Event W V P)) : Prop :=
  match c with
  | .idle => ∃ ops, run H s₀ ops = (s, log)
  | c => ∃ ops s₁ l₁ l₂, run H s₀ ops = (s₁, l₁) ∧ begin_ H s₁ = (s, l₂, .ok c) ∧ log = l₁ ++ l₂

theorem Sim.of_running {H : Hierarchy W X V P C} {s₀ s : State W X V} {c : Called V P}
    {log : List (Event W V P)} (hc : c ≠ .idle)
    (h : ∃ ops s₁ l₁ l₂, run H s₀ ops = (s₁, l₁) ∧ begin_ H s₁ = (s, l₂, .ok c) ∧
      log = l₁ ++ l₂) : Sim H s₀ s c log := by
  cases c with
  | idle => exact absurd rfl hc
  | _ => exact h

theorem Sim.running {H : Hierarchy W X V P C} {s₀ s : State W X V} {c : Called V P}
    {log : List (Event W V P)} (hc : c ≠ .idle) (h : Sim H s₀ s c log) :
    ∃ ops s₁ l₁ l₂, run H s₀ ops = (s₁, l₁) ∧ begin_ H s₁ = (s, l₂, .ok c) ∧
      log = l₁ ++ l₂ := by
  cases c with
  | idle => exact absurd rfl hc
  | _ => exact h

theorem run_snoc (H : Hierarchy W X V P C) (s : State W X V) (ops : List (Op X C))
    (op : Op X C) :
    run H s (ops ++ [op]) = ((step H (run H s ops).1 op).1,
      (run H s ops).2 ++ (step H (run H s ops).1 op).2.1) := by
  induction ops generalizing s with
  | nil => simp [run]
  | cons a l ih => simp [run, ih, List.append_assoc]

theorem Sim.turn {H : Hierarchy W X V P C} {s₀ s : State W X V} {c : Called V P}
    {log : List (Event W V P)} (h : Sim H s₀ s c log) (t : Turn X C)
    (hw : ∀ op, t = .other op → c = .idle) :
    Sim H s₀ (turn H s c t).1 (turn H s c t).2.1 (log ++ (turn H s c t).2.2) := by
  cases t with
  | enter =>
    by_cases hc : c = .idle
    · subst hc
      obtain ⟨ops, hops⟩ := h
      have hb := begin_end_eq_iterate H (.error .assertionError) s
      simp only [Autotuner.turn]
      rcases hbe : begin_ H s with ⟨s', l, (e | c')⟩
      · rw [hbe] at hb
        refine ⟨ops ++ [.iterate (.error .assertionError)], ?_⟩
        rw [run_snoc, hops]
        simp only [step]
        rw [hb.1, hb.2]
      · exact Sim.of_running (begin_ok_ne_idle H s s' l c' hbe) ⟨ops, s, log, l, hops, hbe, rfl⟩
    · have : Autotuner.turn H s c (.enter : Turn X C) = (s, c, []) := by
        cases c with
        | idle => exact absurd rfl hc
        | _ => rfl
      rw [this]; simpa using h
  | leave save =>
    by_cases hc : c = .idle
    · subst hc; simpa [Autotuner.turn] using h
    · obtain ⟨ops, s₁, l₁, l₂, h1, h2, h3⟩ := h.running hc
      have ht : Autotuner.turn H s c (.leave save : Turn X C)
          = ((end_ save s c).1, .idle, (end_ save s c).2) := by
        cases c with
        | idle => exact absurd rfl hc
        | _ => rfl
      have hb := begin_end_eq_iterate H save s₁
      rw [h2] at hb
      rw [ht]
      refine ⟨ops ++ [.iterate save], ?_⟩
      rw [run_snoc, h1]
      simp only [step]
      rw [hb.1, hb.2, h3, List.append_assoc]
  | other op =>
    have hc := hw op rfl
    subst hc
    obtain ⟨ops, hops⟩ := h
    cases op with
    | iterate save => exact ⟨ops, by simpa [Autotuner.turn] using hops⟩
    | restart => exact ⟨ops ++ [.restart], by rw [run_snoc, hops]; rfl⟩
    | changeTargets c => exact ⟨ops ++ [.changeTargets c], by rw [run_snoc, hops]; rfl⟩
    | manual x => exact ⟨ops ++ [.manual x], by rw [run_snoc, hops]; rfl⟩

/-- Whenever another thread acts, no call of `iterate` is running. -/
def OthersWait (H : Hierarchy W X V P C) (s : State W X V) (ts : List (Turn X C)) : Prop :=
  ∀ pre op post, ts = pre ++ .other op :: post →
    (turns H s (.idle : Called V P) pre).2.1 = .idle

theorem turns_snoc (H : Hierarchy W X V P C) (s : State W X V) (c : Called V P)
    (ts : List (Turn X C)) (t : Turn X C) :
    turns H s c (ts ++ [t]) =
      ((turn H (turns H s c ts).1 (turns H s c ts).2.1 t).1,
       (turn H (turns H s c ts).1 (turns H s c ts).2.1 t).2.1,
       (turns H s c ts).2.2 ++ (turn H (turns H s c ts).1 (turns H s c ts).2.1 t).2.2) := by
  induction ts generalizing s c with
  | nil => simp [turns]
  | cons a l ih => simp [turns, ih, List.append_assoc]

theorem sim_turns (H : Hierarchy W X V P C) (s : State W X V) (ts : List (Turn X C))
    (hw : OthersWait H s ts) :
    Sim H s (turns H s (.idle : Called V P) ts).1 (turns H s (.idle : Called V P) ts).2.1
      (turns H s (.idle : Called V P) ts).2.2 := by
  induction ts using List.reverseRecOn with
  | nil => exact ⟨[], rfl⟩
  | append_singleton ts t ih =>
    have hw' : OthersWait H s ts := by
      intro pre op post e
      exact hw pre op (post ++ [t]) (by rw [e]; simp)
    rw [turns_snoc]
    exact (ih hw').turn t (fun op e => hw ts op [] (by rw [e]))

/-! ## What holds while the other threads wait -/

/-- **C142 (provable part, a).** If the other threads act only while no call of `iterate` is
running, a reported completion is what C01 says: the log ends with a stretch in which all tuners reported
"tuned" in this order, and in which no restart took place.  Missing: calls of other threads during a call of
`iterate`, see `restart_during_evaluation_refuted`. -/
theorem completion_between_iterations_partial (H : Hierarchy W X V P C) (w : W) (x : X)
    (ts : List (Turn X C)) (hw : OthersWait H (fresh w x) ts)
    (s : State W X V) (log : List (Event W V P))
    (hrun : turns H (fresh w x) .idle ts = (s, .idle, log)) (hcomplete : isComplete H s = true) :
    ∃ pre post, log = pre ++ post ∧ TunedStretch H.len post ∧
      ((∀ i v w x, H.read (H.isTuned i v w x).1.2 = H.read x) →
        (∀ e ∈ post, ¬ e.IsManual) →
        ∀ i v r, Event.evaluated i v r ∈ post → v = H.read s.expt) := by
  have h := sim_turns H (fresh w x) ts hw
  rw [hrun] at h
  obtain ⟨ops, hops⟩ := h
  exact completion_certificate H w x ops s log hops hcomplete

/-- **C142 (provable part, b).** If the other threads act only while no call of `iterate` is
running, voltages are written only if they were suggested since the last restart: since the
suggestion nothing but saving, failed attempts to write the same voltages, failed target changes and manual changes
took place.  Missing: see `restart_during_suggestion_refuted`. -/
theorem written_between_iterations_partial (H : Hierarchy W X V P C) (w : W) (x : X)
    (ts : List (Turn X C)) (hw : OthersWait H (fresh w x) ts)
    (pre post : List (Event W V P)) (v : V) (r : Except PyErr Unit)
    (hlog : (turns H (fresh w x) .idle ts).2.2 = pre ++ .wrote v r :: post) :
    ∃ a i p mid, pre = a ++ .suggested i p (.ok v) :: mid ∧
      ∀ e ∈ mid, QuietBeforeWrite v e := by
  have h := sim_turns H (fresh w x) ts hw
  by_cases hc : (turns H (fresh w x) (.idle : Called V P) ts).2.1 = .idle
  · rw [hc] at h
    obtain ⟨ops, hops⟩ := h
    refine only_suggested_voltages_written H w x ops pre post v r ?_
    rw [hops]; exact hlog
  · obtain ⟨ops, s₁, l₁, l₂, h1, h2, h3⟩ := h.running hc
    refine only_suggested_voltages_written H w x (ops ++ [.iterate (.error .assertionError)])
      pre post v r ?_
    have hb := begin_end_eq_iterate H (.error .assertionError) s₁
    rw [h2] at hb
    rw [run_snoc, h1]
    simp only [step]
    rw [hb.2, ← hlog, h3]
    simp [end_]

-- A schedule in which the user waits before restarting, and which completes.
example : OthersWait toy (fresh 0 2) ([.enter, .leave (.ok ()), .other .restart, .enter,
      .leave (.ok ()), .enter, .leave (.ok ())] : List (Turn Int Unit)) ∧
    (turns toy (fresh 0 2) (.idle : Called Int Unit) [.enter, .leave (.ok ()), .other .restart,
      .enter, .leave (.ok ()), .enter, .leave (.ok ())]).1 = ⟨2, 2, 2, false, none⟩ := by
  refine ⟨?_, rfl⟩
  intro pre op post h
  rcases pre with _ | ⟨a, _ | ⟨b, _ | ⟨c, _ | ⟨d, _ | ⟨e, _ | ⟨f, _ | ⟨g, _ | ⟨i, l⟩⟩⟩⟩⟩⟩⟩⟩ <;>
    simp at h
  obtain ⟨rfl, rfl, -⟩ := h
  rfl

/-! ## What happens otherwise -/

/-- **C142 is false in general (a)**, for every hierarchy and wherever the tuning is: a tuner is being evaluated; meanwhile the
user sets other voltages by hand and calls `restart`; the evaluation, made at the old
voltages, reports "tuned".  Afterwards the autotuner is at the *second* tuner although
nothing has been evaluated since the restart.  With one tuner the tuning is reported
complete at once; with several the next call evaluates the second one at the new voltages. -/
theorem restart_during_evaluation_refuted (H : Hierarchy W X V P C) (s : State W X V)
    (hready : H.ready s.tuners s.expt s.pending = .ok true) (hp : s.pending = none)
    (hs : s.status = false) (hi : s.index < H.len) (w' : W) (x₁ x' : X)
    (htuned : H.isTuned s.index (H.read s.expt) s.tuners s.expt = ((w', x₁), .ok true))
    (save : Except PyErr Unit) (s' : State W X V) (log : List (Event W V P))
    (hrun : turns H s .idle [.enter, .other (.manual x'), .other .restart, .leave save] =
      (s', .idle, log)) :
    s'.expt = x' ∧
    (∃ rest, log = .evaluated s.index (H.read s.expt) (.ok true) :: .manual :: .restarted :: rest ∧
      ∀ e ∈ rest, ¬ e.IsAction) ∧
    (H.len = 1 → isComplete H s' = true) ∧
    (1 < H.len → H.ready s'.tuners s'.expt s'.pending = .ok true →
      (turns H s' (.idle : Called V P) [.enter]).2.2 =
        [.evaluated 1 (H.read x') (H.isTuned 1 (H.read x') s'.tuners x').2]) := by
  have hc : isComplete H s = false := by
    simp only [isComplete, beq_eq_false_iff_ne, ne_eq]; omega
  have hb : begin_ H s = ({ s with tuners := w', expt := x₁ },
      [.evaluated s.index (H.read s.expt) (.ok true)],
      .ok (.evaluated s.index (H.read s.expt) true)) := by
    unfold begin_
    rw [hready]
    dsimp only
    rw [if_neg (by simp [hc]), hp]
    dsimp only
    rw [if_neg (by omega), if_pos hs, htuned]
  have key : ∃ w₂ rest, s' = ⟨w₂, x', 1, false, none⟩ ∧
      log = .evaluated s.index (H.read s.expt) (.ok true) :: .manual :: .restarted :: rest ∧
      ∀ e ∈ rest, ¬ e.IsAction := by
    simp only [turns, turn, hb, step, restart, end_, assign, List.cons_append,
      List.nil_append, List.append_nil] at hrun
    cases save with
    | ok u =>
      simp only [Prod.mk.injEq, true_and] at hrun
      obtain ⟨h1, h2⟩ := hrun
      refine ⟨(H.restartTuners (H.read x') w').1, _, ?_, h2.symm, ?_⟩
      · rw [← h1, hs]
      · intro e he
        simp only [List.mem_singleton] at he
        subst he; simp [Event.IsAction]
    | error er =>
      simp only [Prod.mk.injEq, true_and] at hrun
      obtain ⟨h1, h2⟩ := hrun
      refine ⟨(H.restartTuners (H.read x') w').1, [], ?_, h2.symm, by simp⟩
      rw [← h1, hs]
  obtain ⟨w₂, rest, rfl, hlog, hrest⟩ := key
  refine ⟨rfl, ⟨rest, hlog, hrest⟩, fun h => by simp [isComplete, h], fun h hr => ?_⟩
  simp only [turns, turn]
  unfold begin_
  rw [hr]
  dsimp only
  have hc1 : isComplete H (⟨w₂, x', 1, false, none⟩ : State W X V) = false := by
    simp only [isComplete, beq_eq_false_iff_ne, ne_eq]; omega
  rw [if_neg (by simp [hc1]), if_neg (by omega)]
  simp only [if_true]
  rcases H.isTuned 1 (H.read x') w₂ x' with ⟨⟨w3, x3⟩, (e | b)⟩ <;> rfl

-- Both tuners of the toy hierarchy, tuner 0 being evaluated at 5; the user moves to -7 meanwhile: the next
-- evaluation is of tuner 1 at -7.
example : (turns toy (fresh 0 5) (.idle : Called Int Unit)
    [.enter, .other (.manual (-7)), .other .restart, .leave (.ok ()), .enter]).2.2 =
    [.evaluated 0 5 (.ok true), .manual, .restarted, .saved ⟨5, 1, false, none⟩,
      .evaluated 1 (-7) (.ok false)] := rfl

-- With one tuner the tuning is complete at -7.
example : isComplete { toy with len := 1 } (turns { toy with len := 1 } (fresh 0 5)
    (.idle : Called Int Unit)
    [.enter, .other (.manual (-7)), .other .restart, .leave (.ok ())]).1 = true := rfl

/-- **C142 is false in general (b)**, for every hierarchy and wherever the tuning is: a tuner is computing new voltages; meanwhile the
user sets other voltages by hand and calls `restart`.  The next call of `iterate` writes
the voltages computed before the restart over those of the user, and nothing
has been evaluated in between. -/
theorem restart_during_suggestion_refuted (H : Hierarchy W X V P C) (s : State W X V)
    (hready : H.ready s.tuners s.expt s.pending = .ok true) (hp : s.pending = none)
    (hs : s.status = true) (hi : s.index < H.len) (w' : W) (x' : X) (v : V)
    (hnext : H.nextVolt s.index (H.tunedParams s.tuners s.index) s.tuners = (w', .ok v))
    (hnan : H.hasNaN v = false) (save : Except PyErr Unit) (s' : State W X V)
    (log : List (Event W V P))
    (hrun : turns H s .idle [.enter, .other (.manual x'), .other .restart, .leave save] =
      (s', .idle, log)) :
    s'.expt = x' ∧ (∃ a b, log = a ++ .restarted :: b ∧ ∀ e ∈ b, ¬ e.IsAction) ∧
    (H.ready s'.tuners s'.expt s'.pending = .ok true →
      (turns H s' (.idle : Called V P) [.enter]).2.2 = [.wrote v (H.setVolt v x').2]) := by
  have hc : isComplete H s = false := by
    simp only [isComplete, beq_eq_false_iff_ne, ne_eq]; omega
  have hb : begin_ H s = ({ s with tuners := w' },
      [.suggested s.index (H.tunedParams s.tuners s.index) (.ok v)],
      .ok (.suggested s.index (H.tunedParams s.tuners s.index) v)) := by
    unfold begin_
    rw [hready]
    dsimp only
    rw [if_neg (by simp [hc]), hp]
    dsimp only
    rw [if_neg (by omega), if_neg (by simp [hs]), hnext]
  have key : ∃ w₂ rest, s' = ⟨w₂, x', 0, false, some v⟩ ∧
      log = [.suggested s.index (H.tunedParams s.tuners s.index) (.ok v), .manual] ++
        .restarted :: rest ∧ ∀ e ∈ rest, ¬ e.IsAction := by
    simp only [turns, turn, hb, step, restart, end_, assign, List.cons_append,
      List.nil_append, List.append_nil] at hrun
    cases save with
    | ok u =>
      simp only [Prod.mk.injEq, true_and] at hrun
      obtain ⟨h1, h2⟩ := hrun
      refine ⟨(H.restartTuners (H.read x') w').1, _, h1.symm, h2.symm, ?_⟩
      intro e he
      simp only [List.mem_singleton] at he
      subst he; simp [Event.IsAction]
    | error er =>
      simp only [Prod.mk.injEq, true_and] at hrun
      obtain ⟨h1, h2⟩ := hrun
      exact ⟨(H.restartTuners (H.read x') w').1, [], h1.symm, h2.symm, by simp⟩
  obtain ⟨w₂, rest, rfl, hlog, hrest⟩ := key
  refine ⟨rfl, ⟨_, rest, hlog, hrest⟩, fun hr => ?_⟩
  simp only [turns, turn]
  unfold begin_
  rw [hr]
  dsimp only
  have hc1 : isComplete H (⟨w₂, x', 0, false, some v⟩ : State W X V) = false := by
    simp only [isComplete, beq_eq_false_iff_ne, ne_eq]; omega
  rw [if_neg (by simp [hc1]), if_neg (by simp [hnan])]
  rcases H.setVolt v x' with ⟨x3, (e | b)⟩ <;> rfl

-- Tuner 0 is asked for voltages at 0 and suggests 1; the user moves to 40 meanwhile: 1 is
-- written.
example : (turns toy ⟨0, 0, 0, true, none⟩ (.idle : Called Int Unit)
    [.enter, .other (.manual 40), .other .restart, .leave (.ok ()), .enter]).2.2 =
    [.suggested 0 () (.ok 1), .manual, .restarted, .saved ⟨0, 0, false, some 1⟩,
      .wrote 1 (.ok ())] := rfl

end Qtune.Autotuner
