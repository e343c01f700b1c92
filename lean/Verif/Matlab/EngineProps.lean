import Verif.Matlab.EngineModel

/-! # Connections to MATLAB: specification and theorems -/

namespace Qtune.Matlab

/-! ### Specification -/

/-- Session `i` runs and is shared as `n`. -/
def Engines.Serves (e : Engines) (n : String) (i : Nat) : Prop :=
  ∃ s, e.sessions[i]? = some s ∧ s.alive = true ∧ s.name = some n

/-- The name has never been used. -/
def Engines.Unused (e : Engines) (n : String) : Prop := ∀ s ∈ e.sessions, s.name ≠ some n

/-- No session has been connected yet, and the names of the sessions are different. -/
structure Engines.Initial (e : Engines) : Prop where
  held : e.held = []
  registry : e.registry = []
  names : ∀ (i j : Nat) (s t : MSession), e.sessions[i]? = some s → e.sessions[j]? = some t → s.name.isSome →
    s.name = t.name → i = j

/-- An event that the bookkeeping copes with: sessions are not started by this program, and sessions get names that have
not been used, also not by sessions that have ended, before this program can connect to them. -/
def Engines.Tame (e : Engines) : EngineOp → Prop
  | .construct c _ => c ≠ ""
  | .connectAny _ auto => e.Unused auto
  | .drop _ => True
  | .opened _ name => ∀ n, name = some n → e.Unused n
  | .shared _ name => e.Unused name
  | .ended _ => True

/-- All events of a history are tame when they happen. -/
def Engines.AllTame : Engines → List EngineOp → Prop
  | _, [] => True
  | e, op :: ops => e.Tame op ∧ (e.step op).AllTame ops

/-! ### Helper lemmas -/

/-- The invariant of tame histories. -/
structure Engines.Inv (e : Engines) : Prop where
  names : ∀ (i j : Nat) (s t : MSession), e.sessions[i]? = some s → e.sessions[j]? = some t → s.name.isSome →
    s.name = t.name → i = j
  held : ∀ i ∈ e.held, ∃ n s, e.sessions[i]? = some s ∧ s.name = some n ∧ (EngineKey.name n, i) ∈ e.registry
  registry : ∀ k i, (k, i) ∈ e.registry → i ∈ e.held ∧
    ∃ n s, k = .name n ∧ e.sessions[i]? = some s ∧ s.name = some n

theorem mem_insertKey_self (k : EngineKey) (i : Nat) (l : List (EngineKey × Nat)) : (k, i) ∈ insertKey k i l := by
  unfold insertKey
  split
  · rename_i h
    obtain ⟨x, hx, hk⟩ := List.any_eq_true.1 h
    exact List.mem_map.2 ⟨x, hx, by simp at hk; simp [hk]⟩
  · simp

theorem mem_insertKey_ne {k k' : EngineKey} {i j : Nat} {l : List (EngineKey × Nat)} (h : (k', j) ∈ l) (hne : k' ≠ k) :
    (k', j) ∈ insertKey k i l := by
  unfold insertKey
  split
  · exact List.mem_map.2 ⟨(k', j), h, by simp [hne]⟩
  · simp [h]

theorem of_mem_insertKey {k k' : EngineKey} {i j : Nat} {l : List (EngineKey × Nat)} (h : (k', j) ∈ insertKey k i l) :
    (k', j) = (k, i) ∨ (k', j) ∈ l := by
  unfold insertKey at h
  split at h
  · obtain ⟨x, hx, hxe⟩ := List.mem_map.1 h
    split at hxe
    · exact Or.inl hxe.symm
    · exact Or.inr (hxe ▸ hx)
  · rcases List.mem_append.1 h with h | h
    · exact Or.inr h
    · exact Or.inl (by simpa using h)

theorem lookup_mem {e : Engines} {k : EngineKey} {i : Nat} (h : e.lookup k = some i) : (k, i) ∈ e.registry := by
  unfold Engines.lookup at h
  obtain ⟨x, hx, hi⟩ := Option.map_eq_some_iff.1 h
  have hk : x.1 = k := by simpa using List.find?_some hx
  have := List.mem_of_find?_eq_some hx
  subst hk hi
  exact this

theorem lookup_none {e : Engines} {k : EngineKey} (h : e.lookup k = none) (i : Nat) : (k, i) ∉ e.registry := by
  intro hm
  unfold Engines.lookup at h
  rw [Option.map_eq_none_iff, List.find?_eq_none] at h
  exact h _ hm (by simp)

theorem findIdx_serves {e : Engines} {n : String} {i : Nat}
    (h : (e.sessions.findIdx? fun s => s.alive && s.name = some n) = some i) : e.Serves n i := by
  rw [List.findIdx?_eq_some_iff_getElem] at h
  obtain ⟨hl, hp, _⟩ := h
  simp only [Bool.and_eq_true, decide_eq_true_eq] at hp
  exact ⟨_, List.getElem?_eq_getElem hl, hp.1, hp.2⟩

/-- A connection to a session without an engine object, and its entry, keep the invariant. -/
theorem Engines.Inv.attached {e : Engines} (h : e.Inv) {i : Nat} {s : MSession} {n : String}
    (hs : e.sessions[i]? = some s) (hn : s.name = some n) (hi : i ∉ e.held) :
    (Engines.register (e.attach i)).1.Inv ∧ (Engines.register (e.attach i)).2 = .ok i := by
  unfold Engines.attach
  rw [if_neg hi]
  unfold Engines.register
  simp only [hs, Option.bind_some, hn, Option.getD_some, and_true]
  refine ⟨h.names, ?_, ?_⟩
  · intro j hj
    rcases List.mem_cons.1 hj with hj | hj
    · subst hj
      exact ⟨n, s, hs, hn, mem_insertKey_self _ _ _⟩
    · obtain ⟨m, t, ht, hm, hr⟩ := h.held j hj
      refine ⟨m, t, ht, hm, mem_insertKey_ne hr ?_⟩
      intro hmn
      have hmn : m = n := by simpa using hmn
      have : i = j := h.names i j s t hs ht (by simp [hn]) (by rw [hn, hm, hmn])
      exact hi (this ▸ hj)
  · intro k j hkj
    rcases of_mem_insertKey hkj with hkj | hkj
    · simp only [Prod.mk.injEq] at hkj
      obtain ⟨rfl, rfl⟩ := hkj
      exact ⟨by simp, n, s, rfl, hs, hn⟩
    · obtain ⟨h1, h2⟩ := h.registry k j hkj
      exact ⟨by simp [h1], h2⟩

/-- The main lemma: a session that runs under a name is found under this name. -/
theorem Engines.Inv.connectName {e : Engines} (h : e.Inv) (n : String) :
    (e.connectName n).1.Inv ∧ (∀ i, e.Serves n i → (e.connectName n).2 = .ok i) := by
  unfold Engines.connectName
  rcases hl : e.lookup (.name n) with _ | j
  · simp only
    unfold Engines.connectMatlab
    rcases hf : (e.sessions.findIdx? fun s => s.alive && s.name = some n) with _ | i
    · rw [hf]
      refine ⟨h, ?_⟩
      rintro i ⟨s, hs, ha, hn⟩
      rw [List.findIdx?_eq_none_iff] at hf
      have := hf s (List.mem_of_getElem? hs)
      simp [ha, hn] at this
    · rw [hf]
      obtain ⟨s, hs, ha, hn⟩ := findIdx_serves hf
      have hi : i ∉ e.held := by
        intro hi
        obtain ⟨m, t, ht, hm, hr⟩ := h.held i hi
        rw [hs, Option.some.injEq] at ht
        subst ht
        rw [hn, Option.some.injEq] at hm
        subst hm
        exact lookup_none hl i hr
      obtain ⟨h1, h2⟩ := h.attached hs hn hi
      refine ⟨h1, ?_⟩
      rintro j ⟨t, ht, _, hm⟩
      have : i = j := h.names i j s t hs ht (by simp [hn]) (by rw [hn, hm])
      rw [← this]
      exact h2
  · simp only
    refine ⟨h, ?_⟩
    rintro i ⟨s, hs, _, hn⟩
    obtain ⟨_, m, t, hm, ht, htm⟩ := h.registry _ _ (lookup_mem hl)
    have hm : n = m := by simpa using hm
    have : i = j := h.names i j s t hs ht (by simp [hn]) (by rw [hn, htm, hm])
    rw [this]

theorem getElem?_append_one {α : Type} {l : List α} {a b : α} {i : Nat} (h : (l ++ [a])[i]? = some b) :
    l[i]? = some b ∨ (i = l.length ∧ b = a) := by
  rcases Nat.lt_trichotomy i l.length with hi | hi | hi
  · rw [List.getElem?_append_left hi] at h
    exact Or.inl h
  · subst hi
    simp at h
    exact Or.inr ⟨rfl, h.symm⟩
  · rw [List.getElem?_eq_none (by simp; omega)] at h
    simp at h

theorem getElem?_append_old {α : Type} {l : List α} {a b : α} {i : Nat} (h : l[i]? = some b) :
    (l ++ [a])[i]? = some b := by
  obtain ⟨hi, _⟩ := List.getElem?_eq_some_iff.1 h
  rw [List.getElem?_append_left hi, h]

/-- A new session with a new name, or without a name, keeps the invariant. -/
theorem Engines.Inv.opened {e : Engines} (h : e.Inv) (pid : Nat) (name : Option String)
    (hn : ∀ n, name = some n → e.Unused n) :
    ({ e with sessions := e.sessions ++ [⟨pid, name, true⟩] } : Engines).Inv := by
  refine ⟨?_, ?_, ?_⟩
  · intro i j s t hs ht hsome heq
    rcases getElem?_append_one hs with hs | ⟨hi, hs⟩ <;> rcases getElem?_append_one ht with ht | ⟨hj, ht⟩
    · exact h.names i j s t hs ht hsome heq
    · subst ht
      obtain ⟨m, hm⟩ := Option.isSome_iff_exists.1 hsome
      exact absurd hm (hn m (by simpa [hm] using heq.symm) s (List.mem_of_getElem? hs))
    · subst hs
      obtain ⟨m, hm⟩ := Option.isSome_iff_exists.1 hsome
      exact absurd (heq.symm.trans hm) (hn m hm t (List.mem_of_getElem? ht))
    · omega
  · intro i hi
    obtain ⟨n, s, hs, hn, hr⟩ := h.held i hi
    exact ⟨n, s, getElem?_append_old hs, hn, hr⟩
  · intro k i hk
    obtain ⟨h1, n, s, h2, hs, hn⟩ := h.registry k i hk
    exact ⟨h1, n, s, h2, getElem?_append_old hs, hn⟩

/-- Changing one session so that its name stays, or is a new one if it had none, keeps the invariant. -/
theorem Engines.Inv.modified {e : Engines} (h : e.Inv) (i : Nat) (f : MSession → MSession)
    (hf : ∀ s, (f s).name = s.name ∨ (s.name = none ∧ ∃ n, (f s).name = some n ∧ e.Unused n)) :
    ({ e with sessions := e.sessions.modify i f } : Engines).Inv := by
  have key : ∀ (j : Nat) (s : MSession), (e.sessions.modify i f)[j]? = some s →
      ∃ s₀, e.sessions[j]? = some s₀ ∧ ((s.name = s₀.name) ∨ (j = i ∧ ∃ n, s.name = some n ∧ e.Unused n)) := by
    intro j s hs
    rw [List.getElem?_modify] at hs
    rcases hj : e.sessions[j]? with _ | s₀
    · simp [hj] at hs
    · rw [hj] at hs
      refine ⟨s₀, rfl, ?_⟩
      by_cases hij : i = j
      · simp [hij] at hs
        subst hs
        rcases hf s₀ with h1 | ⟨_, h2⟩
        · exact Or.inl h1
        · exact Or.inr ⟨hij.symm, h2⟩
      · simp [hij] at hs
        subst hs
        exact Or.inl rfl
  have keep : ∀ (j : Nat) (s : MSession) (n : String), e.sessions[j]? = some s → s.name = some n →
      ∃ s', (e.sessions.modify i f)[j]? = some s' ∧ s'.name = some n := by
    intro j s n hs hn
    rw [List.getElem?_modify, hs]
    by_cases hij : i = j
    · refine ⟨f s, by simp [hij], ?_⟩
      rcases hf s with h1 | ⟨h1, _⟩
      · rw [h1, hn]
      · rw [hn] at h1; simp at h1
    · exact ⟨s, by simp [hij], hn⟩
  refine ⟨?_, ?_, ?_⟩
  · intro j k s t hs ht hsome heq
    obtain ⟨s₀, hs₀, h1⟩ := key j s hs
    obtain ⟨t₀, ht₀, h2⟩ := key k t ht
    rcases h1 with h1 | ⟨rfl, m, hm, hu⟩ <;> rcases h2 with h2 | ⟨rfl, m', hm', hu'⟩
    · exact h.names j k s₀ t₀ hs₀ ht₀ (by rw [← h1]; exact hsome) (by rw [← h1, ← h2, heq])
    · exact absurd (by rw [← h1, heq, hm']) (hu' s₀ (List.mem_of_getElem? hs₀))
    · exact absurd (by rw [← h2, ← heq, hm]) (hu t₀ (List.mem_of_getElem? ht₀))
    · rfl
  · intro j hj
    obtain ⟨n, s, hs, hn, hr⟩ := h.held j hj
    obtain ⟨s', hs', hn'⟩ := keep j s n hs hn
    exact ⟨n, s', hs', hn', hr⟩
  · intro k j hk
    obtain ⟨h1, n, s, h2, hs, hn⟩ := h.registry k j hk
    obtain ⟨s', hs', hn'⟩ := keep j s n hs hn
    exact ⟨h1, n, s', h2, hs', hn'⟩

theorem Engines.Inv.step {e : Engines} (h : e.Inv) {op : EngineOp} (ht : e.Tame op) : (e.step op).Inv := by
  cases op with
  | construct c pid =>
    have hc : c ≠ "" := ht
    simp only [Engines.step, Engines.construct, if_neg hc]
    exact (h.connectName c).1
  | connectAny pid auto =>
    have hu : e.Unused auto := ht
    simp only [Engines.step, Engines.connectAny]
    rcases hr : e.registry with _ | ⟨x, l⟩
    · simp only
      have hheld : ∀ i, i ∉ e.held := by
        intro i hi
        obtain ⟨n, s, _, _, hm⟩ := h.held i hi
        rw [hr] at hm
        simp at hm
      unfold Engines.connectMatlabAny
      rcases hf : (e.sessions.findIdx? fun s => s.alive && s.name.isSome) with _ | i
      · rw [hf]
        have h' := h.opened pid (some auto) (by intro n hn; simp at hn; subst hn; exact hu)
        exact (h'.attached (i := e.sessions.length) (s := ⟨pid, some auto, true⟩) (n := auto) (by simp) rfl (hheld _)).1
      · rw [hf]
        rw [List.findIdx?_eq_some_iff_getElem] at hf
        obtain ⟨hl, hp, _⟩ := hf
        simp only [Bool.and_eq_true] at hp
        obtain ⟨n, hn⟩ := Option.isSome_iff_exists.1 hp.2
        exact (h.attached (List.getElem?_eq_getElem hl) hn (hheld i)).1
    · exact h
  | drop i =>
    refine ⟨h.names, ?_, ?_⟩
    · intro j hj
      simp only [Engines.step, List.mem_filter, decide_eq_true_eq] at hj
      obtain ⟨n, s, hs, hn, hr⟩ := h.held j hj.1
      refine ⟨n, s, hs, hn, ?_⟩
      simp only [Engines.step, List.mem_filter]
      exact ⟨hr, by simpa using hj.2⟩
    · intro k j hk
      simp only [Engines.step, List.mem_filter] at hk
      obtain ⟨h1, h2⟩ := h.registry k j hk.1
      refine ⟨?_, h2⟩
      simp only [Engines.step, List.mem_filter]
      exact ⟨h1, by simpa using hk.2⟩
  | opened pid name => exact h.opened pid name ht
  | «shared» i name =>
    refine h.modified i _ ?_
    intro s
    by_cases hs : s.name.isNone
    · right
      rw [if_pos hs]
      exact ⟨Option.isNone_iff_eq_none.1 hs, name, rfl, ht⟩
    · left
      rw [if_neg hs]
  | ended i => exact h.modified i _ fun s => Or.inl rfl

theorem Engines.Inv.runOps {ops : List EngineOp} : ∀ {e : Engines}, e.Inv → e.AllTame ops → (e.runOps ops).Inv := by
  induction ops with
  | nil => intro e h _; exact h
  | cons op ops ih => intro e h ht; exact ih (h.step ht.1) ht.2

/-! ### Theorems -/

/-- **C137**.  Whatever has been connected, dropped, opened, shared and ended before, a session that runs under the
name `n` is found: the construction with `connect=n` returns its engine, also if the program is already connected
to it.  Missing: sessions that the program itself has started, and names that are used again. -/
theorem connect_finds_session_partial (e₀ : Engines) (h₀ : e₀.Initial) (ops : List EngineOp) (ht : e₀.AllTame ops)
    (n : String) (hn : n ≠ "") (pid i : Nat) (hi : (e₀.runOps ops).Serves n i) :
    ((e₀.runOps ops).construct n pid).2 = .ok i := by
  have h : e₀.Inv := ⟨h₀.names, by simp [h₀.held], by simp [h₀.registry]⟩
  unfold Engines.construct
  rw [if_neg hn]
  exact ((h.runOps ht).connectName n).2 i hi

/-- **C137** is refuted for sessions that this program has started: such a session is registered by its process
id only; connecting by the name under which it is shared tries to connect for a second time and raises, for all
processes and names. -/
theorem connect_started_refuted (pid pid' : Nat) (n : String) (hn : n ≠ "") :
    let e := (⟨[], [], []⟩ : Engines).runOps [.construct "" pid, .shared 0 n]
    e.Serves n 0 ∧ (e.construct n pid').2 = .error engineError := by
  refine ⟨⟨⟨pid, some n, true⟩, ?_, rfl, rfl⟩, ?_⟩
  · simp [Engines.runOps, Engines.step, Engines.construct, Engines.start]
  · simp [Engines.runOps, Engines.step, Engines.construct, Engines.start, hn, Engines.connectName, Engines.lookup, insertKey,
      Engines.connectMatlab, Engines.attach, Engines.register, List.findIdx?_cons]

/-- **C137** is refuted for names that are used again: as long as the engine of the session that has ended is kept, it is
returned instead of the engine of the session that runs, for all processes and names. -/
theorem connect_reused_refuted (pid pid' pid'' : Nat) (n : String) (hn : n ≠ "") :
    let e := (⟨[⟨pid, some n, true⟩], [], []⟩ : Engines).runOps [.construct n pid, .ended 0, .opened pid' (some n)]
    e.Serves n 1 ∧ ¬ e.Serves n 0 ∧ (e.construct n pid'').2 = .ok 0 := by
  refine ⟨⟨⟨pid', some n, true⟩, ?_, rfl, rfl⟩, ?_, ?_⟩
  · simp [Engines.runOps, Engines.step, Engines.construct, hn, Engines.connectName, Engines.lookup, Engines.connectMatlab,
      List.findIdx?_cons, Engines.attach, Engines.register, insertKey]
  · rintro ⟨s, hs, ha, _⟩
    simp [Engines.runOps, Engines.step, Engines.construct, hn, Engines.connectName, Engines.lookup, Engines.connectMatlab,
      List.findIdx?_cons, Engines.attach, Engines.register, insertKey] at hs
    subst hs
    simp at ha
  · simp [Engines.runOps, Engines.step, Engines.construct, hn, Engines.connectName, Engines.lookup, Engines.connectMatlab,
      List.findIdx?_cons, Engines.attach, Engines.register, insertKey]

/-- The hypotheses are satisfiable: connected twice with another connection and a drop in between. -/
example : ∃ (e₀ : Engines) (ops : List EngineOp), e₀.Initial ∧ e₀.AllTame ops ∧ ops.length = 4 ∧
    (e₀.runOps ops).Serves "a" 0 := by
  refine ⟨⟨[⟨7, some "a", true⟩], [], []⟩,
    [.construct "a" 1, .opened 8 (some "b"), .construct "b" 1, .drop 1], ⟨rfl, rfl, ?_⟩, ?_, rfl, ?_⟩
  · intro i j s t hs ht _ _
    rcases i with _ | i <;> rcases j with _ | j <;> simp at hs ht ⊢
  · refine ⟨?_, ?_, ?_, trivial, trivial⟩
    · simp [Engines.Tame]
    · intro n hn s hs
      simp [Engines.step, Engines.construct, Engines.connectName, Engines.lookup, Engines.connectMatlab, List.findIdx?_cons,
        Engines.attach, Engines.register] at hs
      simp at hn
      subst hs hn
      simp
    · simp [Engines.Tame]
  · refine ⟨⟨7, some "a", true⟩, ?_, rfl, rfl⟩
    simp [Engines.runOps, Engines.step, Engines.construct, Engines.connectName, Engines.lookup, Engines.connectMatlab,
      List.findIdx?_cons, Engines.attach, Engines.register, insertKey]

end Qtune.Matlab
