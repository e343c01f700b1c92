import Verif.Gui.LogWindowModel

/-!
# C171: the log window shows the messages of qtune
-/

namespace Qtune.Gui.Log

variable {η : Type}

/-! ## Specification -/

/-- The two loggers of qtune. -/
def ours : List String := ["plotting", "qtune"]

/-- Messages to logger `n` reach a handler of another logger: some parent has one, and all loggers before it pass messages on. -/
def Heard (parents : String → List String) (w : Loggers η) (n : String) : Prop :=
  ∃ before p after, parents n = before ++ p :: after ∧ (w p).handlers ≠ [] ∧ ∀ m ∈ n :: before, (w m).propagate = true

/-- The two loggers of qtune are different branches of the tree: none is the parent of another. -/
def Branches (parents : String → List String) : Prop := ∀ n ∈ ours, ∀ m ∈ ours, m ∉ parents n

/-- No window with this number exists yet. -/
def Fresh (number : Nat) (w : Loggers η) : Prop := ∀ n, Handler.gui number ∉ (w n).handlers

/-- What the window should show: all messages to the loggers of qtune whose level is at least the selected one, in this order.  Messages of `info`
(20) are shown at the beginning. -/
def expected (selected : Nat) : List Act → List (String × Nat × String)
  | [] => []
  | .message n level text :: as => (if n ∈ ours ∧ selected ≤ level then [(n, level, text)] else []) ++ expected selected as
  | .select k :: as => expected ((levels[k]?).getD 0) as

/-- Messages go to the loggers of qtune or to loggers in other branches, and one of the five levels is selected. -/
def Plain (parents : String → List String) (as : List Act) : Prop :=
  ∀ a ∈ as, match a with
    | .message n _ _ => n ∈ ours ∨ ∀ m ∈ parents n, m ∉ ours
    | .select k => k < 5

/-! ## Lemmas -/

theorem change_same (w : Loggers η) (n f) : change w n f n = f (w n) := by simp [change]

theorem change_other (w : Loggers η) {n m : String} (h : m ≠ n) (f) : change w n f m = w m := by simp [change, h]

theorem map_change (w : Loggers η) (n f) {l : List String} (h : n ∉ l) : l.map (change w n f) = l.map w :=
  List.map_congr_left fun m hm => change_other w (by rintro rfl; exact h hm) f

theorem hasHandlers_map (w : Loggers η) : ∀ l : List String,
    hasHandlers (l.map w) = true ↔ ∃ before p after, l = before ++ p :: after ∧ (w p).handlers ≠ [] ∧ ∀ m ∈ before, (w m).propagate = true
  | [] => by simp [hasHandlers]
  | n :: l => by
    simp only [List.map_cons, hasHandlers, Bool.or_eq_true, Bool.not_eq_true', Bool.and_eq_true, hasHandlers_map w l]
    constructor
    · rintro (h | ⟨h1, b, p, a, rfl, h2, h3⟩)
      · exact ⟨[], n, l, rfl, fun e => by simp [e] at h, by simp⟩
      · exact ⟨n :: b, p, a, rfl, h2, by simpa [h1] using h3⟩
    · rintro ⟨b, p, a, h1, h2, h3⟩
      cases b with
      | nil =>
        obtain ⟨rfl, rfl⟩ := List.cons.inj h1
        exact .inl (by cases h : (w n).handlers with | nil => exact absurd h h2 | cons => rfl)
      | cons m b =>
        obtain ⟨rfl, rfl⟩ := List.cons.inj h1
        exact .inr ⟨h3 n (by simp), b, p, a, rfl, h2, fun m hm => h3 m (by simp [hm])⟩

theorem heard_iff (parents : String → List String) (w : Loggers η) (n : String) :
    Heard parents w n ↔ ((w n).propagate = true ∧ hasHandlers ((parents n).map w) = true) := by
  rw [hasHandlers_map]
  constructor
  · rintro ⟨b, p, a, h1, h2, h3⟩
    exact ⟨h3 n (by simp), b, p, a, h1, h2, fun m hm => h3 m (by simp [hm])⟩
  · rintro ⟨h, b, p, a, h1, h2, h3⟩
    exact ⟨b, p, a, h1, h2, by simpa [h] using h3⟩

/-- What the loop of `configure_logging` does: the own handlers are removed, and the exception is raised if there are others. -/
theorem removeLoop_eq (parents : String → List String) (n : String) (hn : n ∉ parents n) : ∀ (k : Nat) (w : Loggers η), (w n).handlers.length = k →
    ∃ w', removeLoop parents n k w = (w', if (w n).propagate && hasHandlers ((parents n).map w) then .error (.other 3) else .ok ()) ∧
      w' n = { w n with handlers := [] } ∧ ∀ m, m ≠ n → w' m = w m
  | 0, w, h => by
    have h0 : (w n).handlers = [] := List.length_eq_zero_iff.1 h
    refine ⟨w, ?_, ?_, fun _ _ => rfl⟩
    · rw [removeLoop]
      simp only [chain, List.map_cons, hasHandlers, h0, List.isEmpty_nil, Bool.not_true, Bool.false_or]
    · dsimp only; rw [← h0]
  | k + 1, w, h => by
    obtain ⟨x, l, h0⟩ := List.exists_cons_of_length_eq_add_one h
    have hw : (change w n (fun l' => { l' with handlers := l'.handlers.tail }) n).handlers.length = k := by
      rw [change_same]; simpa [h0] using h
    obtain ⟨w', h1, h2, h3⟩ := removeLoop_eq parents n hn k (change w n fun l' => { l' with handlers := l'.handlers.tail }) hw
    refine ⟨w', ?_, ?_, ?_⟩
    · rw [removeLoop, if_pos (by simp [chain, hasHandlers, h0]), h1, change_same, map_change _ _ _ hn]
    · rw [h2, change_same]
    · intro m hm; rw [h3 m hm, change_other _ hm]

/-- What `configure_logging` does. -/
theorem configure_eq (parents : String → List String) (n : String) (hn : n ∉ parents n) (g : Window) (w : Loggers η) :
    (Heard parents w n → ∃ w', configure parents n g w = ({ g with loggers := g.loggers ++ [n] }, w', .error (.other 3)) ∧ (w' n).handlers = []) ∧
    (¬ Heard parents w n → ∃ w', configure parents n g w = ({ g with loggers := g.loggers ++ [n] }, w', .ok ()) ∧
      w' n = { w n with handlers := [.gui g.number] } ∧ ∀ m, m ≠ n → w' m = w m) := by
  obtain ⟨w1, h1, h2, h3⟩ := removeLoop_eq parents n hn _ w rfl
  constructor
  · intro h
    rw [heard_iff] at h
    refine ⟨w1, ?_, by rw [h2]⟩
    rw [configure, removeAll, h1]; simp [h]
  · intro h
    rw [heard_iff] at h
    refine ⟨change w1 n fun l => { l with handlers := l.handlers ++ [.gui g.number] }, ?_, ?_, ?_⟩
    · rw [configure, removeAll, h1, if_neg (by simpa using h)]
    · rw [change_same, h2]; rfl
    · intro m hm; rw [change_other _ hm, h3 m hm]

theorem heard_congr {parents : String → List String} {w w' : Loggers η} {n : String} (h : ∀ m ∈ parents n, w' m = w m)
    (hp : (w' n).propagate = (w n).propagate) : Heard parents w' n ↔ Heard parents w n := by
  rw [heard_iff, heard_iff, hp, List.map_congr_left h]

/-- What `setup_default_gui` does to the loggers if it returns. -/
theorem setup_eq (parents : String → List String) (hb : Branches parents) (number : Nat) (w : Loggers η)
    (h1 : ¬ Heard parents w "plotting") (h2 : ¬ Heard parents w "qtune") :
    ∃ w', setup parents number w = (⟨number, 3, ours, []⟩, w', .ok ()) ∧
      (∀ n ∈ ours, w' n = { w n with handlers := [.gui number], level := 20 }) ∧ ∀ n, n ∉ ours → w' n = w n := by
  obtain ⟨wa, a1, a2, a3⟩ := (configure_eq parents "plotting" (hb _ (by simp [ours]) _ (by simp [ours])) ⟨number, 5, [], []⟩ w).2 h1
  have h2' : ¬ Heard parents wa "qtune" := by
    rw [heard_congr (w := w)]
    · exact h2
    · intro m hm
      exact a3 m fun e => hb "qtune" (by simp [ours]) "plotting" (by simp [ours]) (e ▸ hm)
    · rw [a3 "qtune" (by decide)]
  obtain ⟨wb, b1, b2, b3⟩ := (configure_eq parents "qtune" (hb _ (by simp [ours]) _ (by simp [ours])) ⟨number, 5, [] ++ ["plotting"], []⟩ wa).2 h2'
  refine ⟨(select 3 ⟨number, 5, ["plotting", "qtune"], []⟩ wb).2, ?_, ?_, ?_⟩
  · rw [setup, a1]; dsimp only
    rw [b1]; rfl
  · intro n hn
    simp only [ours, List.mem_cons, List.not_mem_nil, or_false] at hn
    rcases hn with rfl | rfl
    · have : wb "plotting" = wa "plotting" := b3 _ (by decide)
      simp [select, change, levels, this, a2]
    · have : wa "qtune" = w "qtune" := a3 _ (by decide)
      simp [select, change, levels, b2, this]
  · intro n hn
    simp only [ours, List.mem_cons, List.not_mem_nil, or_false, not_or] at hn
    simp [select, change, hn.1, hn.2, b3 n hn.2, a3 n hn.1]

/-- The state of window and loggers while the gui is open. -/
structure Ready (parents : String → List String) (number index : Nat) (s : Window × Loggers η) : Prop where
  num : s.1.number = number
  idx : s.1.index = index
  names : s.1.loggers = ours
  own : ∀ n ∈ ours, (s.2 n).handlers = [.gui number]
  level : ∀ n ∈ ours, (s.2 n).level = (levels[index]?).getD 0
  rest : ∀ n, n ∉ ours → Handler.gui number ∉ (s.2 n).handlers

theorem filter_receivers (number : Nat) (w : Loggers η) : ∀ l : List String, (∀ n ∈ l, Handler.gui number ∉ (w n).handlers) →
    (receivers (l.map w)).filter (isOf number) = []
  | [], _ => rfl
  | n :: l, h => by
    have hn : (w n).handlers.filter (isOf number) = [] := by
      rw [List.filter_eq_nil_iff]
      intro x hx
      cases x with
      | gui k => simp only [isOf, beq_iff_eq]; rintro rfl; exact h n (by simp) hx
      | other _ => simp [isOf]
    rw [List.map_cons, receivers, List.filter_append, hn, List.nil_append]
    split
    · exact filter_receivers number w l fun m hm => h m (by simp [hm])
    · rfl

theorem Ready.select {parents : String → List String} {number index : Nat} {s : Window × Loggers η} (h : Ready parents number index s) (k : Nat) :
    Ready parents number k (select k s.1 s.2) ∧ (select k s.1 s.2).1.lines = s.1.lines ∧ ∀ n, n ∉ ours → (select k s.1 s.2).2 n = s.2 n := by
  unfold Log.select
  split
  · rename_i e
    refine ⟨?_, rfl, fun _ _ => rfl⟩
    rw [e, h.idx]; exact h
  · have hl := h.names
    rw [hl]
    have key : ∀ n, (List.foldl (fun w n => change w n fun l => { l with level := (levels[k]?).getD 0 }) s.2 ours) n
        = if n ∈ ours then { s.2 n with level := (levels[k]?).getD 0 } else s.2 n := by
      intro n
      simp only [ours, List.foldl_cons, List.foldl_nil, change, List.mem_cons, List.not_mem_nil, or_false]
      by_cases h1 : n = "qtune"
      · subst h1; simp
      · by_cases h2 : n = "plotting"
        · subst h2; simp
        · simp [h1, h2]
    refine ⟨⟨h.num, rfl, ?_, ?_, ?_, ?_⟩, rfl, ?_⟩
    · rfl
    · intro n hn; dsimp only; rw [key, if_pos hn]; exact h.own n hn
    · intro n hn; dsimp only; rw [key, if_pos hn]
    · intro n hn; dsimp only; rw [key, if_neg hn]; exact h.rest n hn
    · intro n hn; dsimp only; rw [key, if_neg hn]

theorem Ready.shown {parents : String → List String} (hb : Branches parents) {number index : Nat} {s : Window × Loggers η}
    (h : Ready parents number index s) (n : String) (hn : n ∈ ours) :
    (receivers (chain parents s.2 n)).filter (isOf s.1.number) = [.gui number] := by
  rw [h.num, chain, List.map_cons, receivers, h.own n hn, List.filter_append]
  have : List.filter (isOf number) [(Handler.gui number : Handler η)] = [.gui number] := by simp [isOf]
  rw [this]
  split
  · rw [filter_receivers number s.2 (parents n) fun m hm => h.rest m fun hm' => hb n hn m hm' hm]; rfl
  · rfl

theorem message_ours {parents : String → List String} (hb : Branches parents) {number index : Nat} {s : Window × Loggers η}
    (h : Ready parents number index s) (n : String) (hn : n ∈ ours) (level : Nat) (text : String) :
    (message parents s.2 n level text s.1).lines
      = s.1.lines ++ if effectiveLevel (chain parents s.2 n) ≤ level then [(n, level, text)] else [] := by
  rw [message]
  split
  · rename_i hl; dsimp only; rw [h.shown hb n hn]; rfl
  · simp

theorem Ready.message {parents : String → List String} {number index : Nat} {s : Window × Loggers η}
    (h : Ready parents number index s) (n : String) (level : Nat) (text : String) :
    Ready parents number index (Log.message parents s.2 n level text s.1, s.2) := by
  have : (Log.message parents s.2 n level text s.1).number = s.1.number ∧ (Log.message parents s.2 n level text s.1).index = s.1.index ∧
      (Log.message parents s.2 n level text s.1).loggers = s.1.loggers := by
    unfold Log.message; split <;> exact ⟨rfl, rfl, rfl⟩
  exact ⟨this.1.trans h.num, this.2.1.trans h.idx, this.2.2.trans h.names, h.own, h.level, h.rest⟩

theorem levels_pos {k : Nat} (h : k < 5) : (levels[k]?).getD 0 ≠ 0 := by
  match k, h with
  | 0, _ => decide
  | 1, _ => decide
  | 2, _ => decide
  | 3, _ => decide
  | 4, _ => decide

theorem run_shows {parents : String → List String} (hb : Branches parents) {number : Nat} : ∀ (as : List Act) (index : Nat) (s : Window × Loggers η),
    Ready parents number index s → index < 5 → Plain parents as →
    (run parents s as).1.lines = s.1.lines ++ expected ((levels[index]?).getD 0) as
  | [], _, s, _, _, _ => by simp [run, expected]
  | .message n level text :: as, index, s, h, hi, hp => by
    have ih := run_shows hb as index _ (h.message n level text) hi fun a ha => hp a (List.mem_cons_of_mem _ ha)
    have hl : (message parents s.2 n level text s.1).lines
        = s.1.lines ++ if n ∈ ours ∧ (levels[index]?).getD 0 ≤ level then [(n, level, text)] else [] := by
      by_cases hn : n ∈ ours
      · rw [message_ours hb h n hn]
        simp only [hn, true_and]
        have : effectiveLevel (chain parents s.2 n) = (levels[index]?).getD 0 := by
          rw [chain, List.map_cons, effectiveLevel, h.level n hn, if_pos (levels_pos hi)]
        rw [this]
      · have hq : ∀ m ∈ parents n, m ∉ ours := by
          rcases hp (.message n level text) (by simp) with h' | h'
          · exact absurd h' hn
          · exact h'
        simp only [hn, false_and, if_false, List.append_nil]
        rw [message]
        split
        · dsimp only
          rw [chain, h.num, filter_receivers number s.2 (n :: parents n)]
          · simp
          · intro m hm
            rcases List.mem_cons.1 hm with rfl | hm
            · exact h.rest _ hn
            · exact h.rest _ (hq m hm)
        · rfl
    show (run parents (message parents s.2 n level text s.1, s.2) as).1.lines = _
    rw [ih]; dsimp only; rw [hl, expected, List.append_assoc]
  | .select k :: as, index, s, h, hi, hp => by
    have hk : k < 5 := hp (.select k) (by simp)
    obtain ⟨h1, h2, _⟩ := h.select k
    have ih := run_shows hb as k _ h1 hk fun a ha => hp a (List.mem_cons_of_mem _ ha)
    show (run parents (select k s.1 s.2) as).1.lines = _
    rw [ih, h2, expected]

theorem setup_ready (parents : String → List String) (hb : Branches parents) (number : Nat) (w : Loggers η) (hf : Fresh number w)
    (h1 : ¬ Heard parents w "plotting") (h2 : ¬ Heard parents w "qtune") :
    ∃ g w', setup parents number w = (g, w', .ok ()) ∧ g.lines = [] ∧ Ready parents number 3 (g, w') ∧ ∀ n, n ∉ ours → w' n = w n := by
  obtain ⟨w', e, ho, hr⟩ := setup_eq parents hb number w h1 h2
  refine ⟨_, w', e, rfl, ⟨rfl, rfl, rfl, ?_, ?_, ?_⟩, hr⟩
  · intro n hn; dsimp only; rw [ho n hn]
  · intro n hn; dsimp only; rw [ho n hn]; rfl
  · intro n hn; dsimp only; rw [hr n hn]; exact hf n

/-! ## C171 -/

/-- **C171**: `setup_default_gui` returns exactly if no message to a logger of qtune reaches a handler of another logger, for example of the root
logger; otherwise it raises `StopIteration`. -/
theorem log_window_opens (parents : String → List String) (hb : Branches parents) (number : Nat) (w : Loggers η) :
    ((setup parents number w).2.2 = .ok () ↔ ∀ n ∈ ours, ¬ Heard parents w n) ∧
    ((∃ n ∈ ours, Heard parents w n) → (setup parents number w).2.2 = .error (.other 3)) := by
  have err : (∃ n ∈ ours, Heard parents w n) → (setup parents number w).2.2 = .error (.other 3) := by
    intro h
    by_cases h1 : Heard parents w "plotting"
    · obtain ⟨wa, a1, _⟩ := (configure_eq parents "plotting" (hb _ (by simp [ours]) _ (by simp [ours])) ⟨number, 5, [], []⟩ w).1 h1
      rw [setup, a1]
    · have h2 : Heard parents w "qtune" := by
        obtain ⟨n, hn, h⟩ := h
        simp only [ours, List.mem_cons, List.not_mem_nil, or_false] at hn
        rcases hn with rfl | rfl
        · exact absurd h h1
        · exact h
      obtain ⟨wa, a1, a2, a3⟩ := (configure_eq parents "plotting" (hb _ (by simp [ours]) _ (by simp [ours])) ⟨number, 5, [], []⟩ w).2 h1
      have h2' : Heard parents wa "qtune" := by
        rw [heard_congr (w := w)]
        · exact h2
        · intro m hm
          exact a3 m fun e => hb "qtune" (by simp [ours]) "plotting" (by simp [ours]) (e ▸ hm)
        · rw [a3 "qtune" (by decide)]
      obtain ⟨wb, b1, _⟩ := (configure_eq parents "qtune" (hb _ (by simp [ours]) _ (by simp [ours])) ⟨number, 5, [] ++ ["plotting"], []⟩ wa).1 h2'
      rw [setup, a1]; dsimp only
      rw [b1]
  refine ⟨⟨fun h n hn hh => ?_, fun h => ?_⟩, err⟩
  · rw [err ⟨n, hn, hh⟩] at h; cases h
  · obtain ⟨w', e, _⟩ := setup_eq parents hb number w (h _ (by simp [ours])) (h _ (by simp [ours]))
    rw [e]

/-- **C171** (partial: not if "NOTSET" is selected or `setup_default_gui` raises): for all messages and selections of levels the window shows
each message to the loggers of qtune whose level is at least the selected one exactly once, in their order, and no others. -/
theorem log_window_shows_partial (parents : String → List String) (hb : Branches parents) (number : Nat) (w : Loggers η) (hf : Fresh number w)
    (hq : ∀ n ∈ ours, ¬ Heard parents w n) (as : List Act) (hp : Plain parents as) :
    ∃ g w', setup parents number w = (g, w', .ok ()) ∧ (run parents (g, w') as).1.lines = expected 20 as := by
  obtain ⟨g, w', e, hl, h, _⟩ := setup_ready parents hb number w hf (hq _ (by simp [ours])) (hq _ (by simp [ours]))
  refine ⟨g, w', e, ?_⟩
  rw [run_shows hb as 3 _ h (by decide) hp, hl]; rfl

/-- **C171** refuted: if "NOTSET", the last entry of the list after "DEBUG", is selected, then the level of the parents counts: a message is shown
exactly if its level is at least theirs.  The root logger has level 30 (warning) unless someone changes it, so then messages of `info` vanish
that were shown before. -/
theorem log_window_not_set_refuted (parents : String → List String) (hb : Branches parents) (number : Nat) (w : Loggers η) (hf : Fresh number w)
    (hq : ∀ n ∈ ours, ¬ Heard parents w n) (as : List Act) (hp : Plain parents as) :
    ∃ g w', setup parents number w = (g, w', .ok ()) ∧ ∀ n ∈ ours, ∀ level text,
      (run parents (g, w') (as ++ [.select 5, .message n level text])).1.lines
        = expected 20 as ++ if effectiveLevel ((parents n).map w) ≤ level then [(n, level, text)] else [] := by
  obtain ⟨g, w', e, hl, h, hr⟩ := setup_ready parents hb number w hf (hq _ (by simp [ours])) (hq _ (by simp [ours]))
  refine ⟨g, w', e, fun n hn level text => ?_⟩
  have inv : ∀ (as : List Act) (index : Nat) (s : Window × Loggers η), Ready parents number index s →
      ∃ index', Ready parents number index' (run parents s as) ∧ ∀ n, n ∉ ours → (run parents s as).2 n = s.2 n := by
    intro as
    induction as with
    | nil => exact fun index s h => ⟨index, h, fun _ _ => rfl⟩
    | cons a as ih =>
      intro index s h
      cases a with
      | message n level text => exact ih index _ (h.message n level text)
      | select k =>
        obtain ⟨i, h1, h2⟩ := ih k _ (h.select k).1
        exact ⟨i, h1, fun n hn => (h2 n hn).trans ((h.select k).2.2 n hn)⟩
  obtain ⟨i, h1, h2⟩ := inv as 3 _ h
  have hlines := run_shows hb as 3 _ h (by decide) hp
  obtain ⟨h3, h4, h5⟩ := h1.select 5
  have hrun : run parents (g, w') (as ++ [.select 5, .message n level text])
      = (message parents (select 5 (run parents (g, w') as).1 (run parents (g, w') as).2).2 n level text
          (select 5 (run parents (g, w') as).1 (run parents (g, w') as).2).1,
        (select 5 (run parents (g, w') as).1 (run parents (g, w') as).2).2) := by
    rw [run, List.foldl_append]; rfl
  rw [hrun]; dsimp only
  rw [message_ours hb h3 n hn, h4, hlines, hl]
  have : effectiveLevel (chain parents (select 5 (run parents (g, w') as).1 (run parents (g, w') as).2).2 n)
      = effectiveLevel ((parents n).map w) := by
    rw [chain, List.map_cons, effectiveLevel, h3.level n hn, if_neg (by simp [levels])]
    congr 1
    refine List.map_congr_left fun m hm => ?_
    have hm' : m ∉ ours := fun h' => hb n hn m h' hm
    rw [h5 m hm', h2 m hm']; exact hr m hm'
  rw [this]; rfl

/-- **C171**, several windows: the newest one gets the messages; the window of a gui that was set up before gets no message of any logger any more. -/
theorem log_window_newest (parents : String → List String) (hb : Branches parents) (old : Window) (number : Nat) (hne : old.number ≠ number)
    (w : Loggers η) (hrest : ∀ n, n ∉ ours → Handler.gui old.number ∉ (w n).handlers)
    (hq : ∀ n ∈ ours, ¬ Heard parents w n) (n : String) (level : Nat) (text : String) :
    message parents (setup parents number w).2.1 n level text old = old := by
  obtain ⟨w', e, ho, hr⟩ := setup_eq parents hb number w (hq _ (by simp [ours])) (hq _ (by simp [ours]))
  rw [e, message]; dsimp only
  split
  · rw [chain, filter_receivers old.number w' (n :: parents n)]
    · simp
    · intro m _
      by_cases hm : m ∈ ours
      · rw [ho m hm]; simp [hne]
      · rw [hr m hm]; exact hrest m hm
  · rfl

/-! ## Examples -/

/-- The usual tree: `root` is the parent of all others. -/
def usual : String → List String := fun n => if n = "root" then [] else ["root"]

/-- The usual levels: 30 (warning) for `root`, not set for others. -/
def usualLoggers : Loggers Unit := fun n => if n = "root" then ⟨30, [], true⟩ else ⟨0, [], true⟩

theorem usual_branches : Branches usual := by
  intro n hn m hm
  simp only [ours, List.mem_cons, List.not_mem_nil, or_false] at hn hm
  rcases hn with rfl | rfl <;> rcases hm with rfl | rfl <;> simp [usual]

/-- The hypotheses of `log_window_shows_partial` hold for the usual loggers. -/
example : Branches usual ∧ Fresh 0 usualLoggers ∧ (∀ n ∈ ours, ¬ Heard usual usualLoggers n) ∧
    Plain usual [.message "qtune" 20 "a", .select 2, .message "qtune" 20 "b", .message "plotting" 40 "c", .message "other" 40 "d"] := by
  refine ⟨usual_branches, ?_, ?_, ?_⟩
  · intro n; simp only [usualLoggers]; split <;> simp
  · rintro n hn ⟨b, p, a, _, h, _⟩
    simp only [usualLoggers] at h
    split at h <;> simp at h
  · intro a ha
    simp only [List.mem_cons, List.not_mem_nil, or_false] at ha
    rcases ha with rfl | rfl | rfl | rfl | rfl <;> simp [ours, usual]

/-- What is shown then. -/
example : expected 20 [.message "qtune" 20 "a", .select 2, .message "qtune" 20 "b", .message "plotting" 40 "c", .message "other" 40 "d"]
    = [("qtune", 20, "a"), ("plotting", 40, "c")] := by
  simp [expected, ours, levels]

/-- After the selection of "NOTSET" a message of `info` is not shown for the usual loggers: the level of the parents is 30. -/
example : ¬ effectiveLevel ((usual "qtune").map usualLoggers) ≤ 20 := by simp [usual, usualLoggers, effectiveLevel]

/-- If the root logger has a handler, for example after `logging.basicConfig()`, then `setup_default_gui` raises. -/
example : (setup usual 0 (fun n => if n = "root" then ⟨30, [.other ()], true⟩ else usualLoggers n)).2.2 = .error (.other 3) :=
  (log_window_opens usual usual_branches 0 _).2
    ⟨"qtune", by simp [ours], [], "root", [], by simp [usual], by simp, by simp [usualLoggers]⟩

/-- A window of a gui that was set up before, as in `log_window_newest`. -/
example : (∀ n, n ∉ ours → Handler.gui 0 ∉ ((setup usual 0 usualLoggers).2.1 n).handlers) ∧
    ∀ n ∈ ours, ¬ Heard usual (setup usual 0 usualLoggers).2.1 n := by
  have hq : ∀ n ∈ ours, ¬ Heard usual usualLoggers n := by
    rintro n hn ⟨b, p, a, _, h, _⟩
    simp only [usualLoggers] at h
    split at h <;> simp at h
  obtain ⟨w', e, ho, hr⟩ := setup_eq usual usual_branches 0 usualLoggers (hq _ (by simp [ours])) (hq _ (by simp [ours]))
  rw [e]
  refine ⟨fun n hn => ?_, fun n hn => ?_⟩
  · dsimp only; rw [hr n hn]; simp only [usualLoggers]; split <;> simp
  · dsimp only
    rw [heard_congr (w := usualLoggers)]
    · exact hq n hn
    · intro m hm
      exact hr m fun h => usual_branches n hn m h hm
    · rw [ho n hn]

end Qtune.Gui.Log
