import Verif.Evaluator.ShareModel
import Mathlib.Tactic.Tauto
import Mathlib.Tactic.NormNum

/-!
# C201: evaluators that share a measurement
-/

namespace Qtune.Evaluator.Share

/-- The evaluators of sensing dots, which change the options of their measurement. -/
def Kind.IsDot : Kind → Prop
  | .dot1 _ => True
  | .dot2 _ _ _ => True
  | _ => False

/-- The scan is the one that its evaluator was made for, with the measurement as it is in the session `σ`: a `SensingDot1D` sweeps
its gate around the present voltage, a `SensingDot2D` the two gates of its measurement around their present voltages, everything else as in the
measurement (a 2D scan does not use the option `gate`); the others use the measurement as it is. -/
def AsAsked (σ : Session) (w : Done) : Prop :=
  match w.ev.kind with
  | .dot1 g => w.scan.options "gate" = some (.text g) ∧ (∃ x, w.volts g = some x ∧ w.scan.options "center" = some (.num x)) ∧
      w.scan.name = (σ.scan w.ref).name ∧
      ∀ k, k ≠ "gate" → k ≠ "center" → w.scan.options k = (σ.scan w.ref).options k
  | .dot2 _ _ _ => (∃ g₁ g₂ x y, (σ.scan w.ref).options "gate1" = some (.text g₁) ∧ (σ.scan w.ref).options "gate2" = some (.text g₂) ∧
        w.volts g₁ = some x ∧ w.volts g₂ = some y ∧ w.scan.options "center" = some (.pair (some x) (some y))) ∧
      w.scan.name = (σ.scan w.ref).name ∧
      ∀ k, k ≠ "gate" → k ≠ "center" → w.scan.options k = (σ.scan w.ref).options k
  | _ => w.scan = σ.scan w.ref

/-! ## What a step does -/

theorem measureAll_mem {s : Session} {d : Device} {e : Ev} : ∀ {l : List Nat}, ∀ w ∈ (measureAll s d e l).1,
    w.ev = e ∧ w.ref ∈ l ∧ w.scan = s.scan w.ref ∧ w.volts = d.volts
  | [], w, hw => by cases hw
  | i :: l, w, hw => by
    unfold measureAll at hw
    split at hw
    · rw [List.mem_singleton.1 hw]
      exact ⟨rfl, by simp, rfl, rfl⟩
    · rcases List.mem_cons.1 hw with rfl | h
      · exact ⟨rfl, by simp, rfl, rfl⟩
      · obtain ⟨h1, h2, h3⟩ := measureAll_mem w h
        exact ⟨h1, List.mem_cons_of_mem _ h2, h3⟩

theorem measureAll_head (s : Session) (d : Device) (e : Ev) (i : Nat) (l : List Nat) :
    ⟨e, i, s.scan i, d.volts⟩ ∈ (measureAll s d e (i :: l)).1 := by
  unfold measureAll
  split <;> simp

theorem evaluate_keeps (s : Session) (d : Device) (e : Ev) : (s.evaluate d e).1.next = s.next ∧ (s.evaluate d e).1.evs = s.evs := by
  unfold Session.evaluate
  repeat' split
  all_goals exact ⟨rfl, rfl⟩

/-- Only the options `gate` and `center` of the first measurement of a dot change. -/
theorem evaluate_scan (s : Session) (d : Device) (e : Ev) (i : Nat) :
    ((s.evaluate d e).1.scan i).name = (s.scan i).name ∧
    (∀ k, k ≠ "gate" → k ≠ "center" → ((s.evaluate d e).1.scan i).options k = (s.scan i).options k) ∧
    ((e.kind.IsDot → e.scans.head? ≠ some i) → (s.evaluate d e).1.scan i = s.scan i) := by
  unfold Session.evaluate
  split
  · exact ⟨rfl, fun _ _ _ => rfl, fun _ => rfl⟩
  rename_i j l hsc
  split
  · exact ⟨rfl, fun _ _ _ => rfl, fun _ => rfl⟩
  · exact ⟨rfl, fun _ _ _ => rfl, fun _ => rfl⟩
  · exact ⟨rfl, fun _ _ _ => rfl, fun _ => rfl⟩
  · exact ⟨rfl, fun _ _ _ => rfl, fun _ => rfl⟩
  · rename_i g hk
    dsimp only
    split
    · by_cases hij : i = j
      · subst hij
        refine ⟨by simp [Scan.set], fun k h1 _ => by simp [Scan.set, h1], fun h => ?_⟩
        exact absurd (by rw [hsc]; rfl) (h (by rw [hk]; trivial))
      · simp [hij]
    · by_cases hij : i = j
      · subst hij
        refine ⟨by simp [Scan.set], fun k h1 h2 => by simp [Scan.set, h1, h2], fun h => ?_⟩
        exact absurd (by rw [hsc]; rfl) (h (by rw [hk]; trivial))
      · simp [hij]
  · rename_i hk
    split
    · exact ⟨rfl, fun _ _ _ => rfl, fun _ => rfl⟩
    · split
      · exact ⟨rfl, fun _ _ _ => rfl, fun _ => rfl⟩
      · dsimp only
        by_cases hij : i = j
        · subst hij
          refine ⟨by simp [Scan.set], fun k _ h2 => by simp [Scan.set, h2], fun h => ?_⟩
          exact absurd (by rw [hsc]; rfl) (h (by rw [hk]; trivial))
        · simp [hij]

theorem gateVoltage_ok {d : Device} {o : String → Option Opt} {key : String} {x : ℝ} (h : gateVoltage d o key = .ok x) :
    ∃ g, o key = some (.text g) ∧ d.volts g = some x := by
  unfold gateVoltage at h
  split at h
  · rename_i g hg
    split at h
    · rename_i y hy
      cases h
      exact ⟨g, hg, hy⟩
    · cases h
  · cases h

/-- The scans of one evaluation are the ones that were asked for, with the measurements as they were before. -/
theorem evaluate_asked (s : Session) (d : Device) (e : Ev) : ∀ w ∈ (s.evaluate d e).2.1, w.ev = e ∧ AsAsked s w := by
  intro w hw
  unfold Session.evaluate at hw
  split at hw
  · cases hw
  rename_i i l hsc
  have plain : ∀ (l : List Nat), w ∈ (measureAll s d e l).1 → (∀ g, e.kind ≠ .dot1 g) → (∀ a b c, e.kind ≠ .dot2 a b c) →
      w.ev = e ∧ AsAsked s w := by
    intro l hw h1 h2
    obtain ⟨a, -, b, -⟩ := measureAll_mem w hw
    refine ⟨a, ?_⟩
    unfold AsAsked
    rw [a]
    split
    · rename_i g hg; exact absurd hg (h1 g)
    · rename_i x y z hg; exact absurd hg (h2 x y z)
    · exact b
  split at hw
  · rename_i hk; exact plain _ hw (by simp [hk]) (by simp [hk])
  · rename_i hk; exact plain _ hw (by simp [hk]) (by simp [hk])
  · rename_i hk; exact plain _ hw (by simp [hk]) (by simp [hk])
  · rename_i hk; exact plain _ hw (by simp [hk]) (by simp [hk])
  · rename_i g hk
    dsimp only at hw
    split at hw
    · cases hw
    · rename_i x hx
      obtain ⟨a, b, c, c'⟩ := measureAll_mem w hw
      have b' := List.mem_singleton.1 b
      refine ⟨a, ?_⟩
      unfold AsAsked
      rw [a, hk]
      dsimp only
      rw [c, c', b']
      simp only [if_true]
      exact ⟨by simp [Scan.set], ⟨x, hx, by simp [Scan.set]⟩, by simp [Scan.set], fun k h1 h2 => by simp [Scan.set, h1, h2]⟩
  · rename_i hk
    split at hw
    · cases hw
    rename_i x hx
    split at hw
    · cases hw
    rename_i y hy
    obtain ⟨a, b, c, c'⟩ := measureAll_mem w hw
    have b' := List.mem_singleton.1 b
    obtain ⟨g₁, h1, h1'⟩ := gateVoltage_ok hx
    obtain ⟨g₂, h2, h2'⟩ := gateVoltage_ok hy
    refine ⟨a, ?_⟩
    unfold AsAsked
    rw [a, hk]
    dsimp only
    rw [c, c', b']
    simp only [if_true]
    exact ⟨⟨g₁, g₂, x, y, h1, h2, h1', h2', by simp [Scan.set]⟩, by simp [Scan.set], fun k _ h2 => by simp [Scan.set, h2]⟩

theorem addAll_spec : ∀ (l : List Scan) (s : Session), (s.addAll l).evs = s.evs ∧ (s.addAll l).next = s.next + l.length ∧
    (∀ i, i < s.next → (s.addAll l).scan i = s.scan i)
  | [], s => ⟨rfl, rfl, fun _ _ => rfl⟩
  | m :: l, s => by
    obtain ⟨h1, h2, h3⟩ := addAll_spec l (s.add m)
    refine ⟨h1, by rw [Session.addAll, h2]; simp only [Session.add, List.length_cons]; omega, fun i hi => ?_⟩
    rw [Session.addAll, h3 i (by simp only [Session.add]; omega)]
    simp only [Session.add]
    rw [if_neg (by omega)]

/-- What a step does to the measurements that exist, and to the list of evaluators. -/
theorem step_spec (s : Session) (a : Act) :
    s.next ≤ (s.step a).1.next ∧ (∃ new, (s.step a).1.evs = s.evs ++ new) ∧
    ∀ i, i < s.next → ((s.step a).1.scan i).name = (s.scan i).name ∧
      (∀ k, k ≠ "gate" → k ≠ "center" → ((s.step a).1.scan i).options k = (s.scan i).options k) ∧
      ((∀ e ∈ (s.step a).1.evs, e.kind.IsDot → e.scans.head? ≠ some i) → (s.step a).1.scan i = s.scan i) := by
  cases a with
  | measurement m =>
    refine ⟨Nat.le_succ _, ⟨[], by simp [Session.step, Session.add]⟩, fun i hi => ?_⟩
    have : (s.step (.measurement m)).1.scan i = s.scan i := by
      simp only [Session.step, Session.add]
      rw [if_neg (by omega)]
    exact ⟨by rw [this], fun _ _ _ => by rw [this], fun _ => this⟩
  | create kind given =>
    cases given with
    | some given =>
      simp only [Session.step, Session.create]
      split
      · exact ⟨le_rfl, ⟨_, rfl⟩, fun i _ => ⟨rfl, fun _ _ _ => rfl, fun _ => rfl⟩⟩
      · exact ⟨le_rfl, ⟨[], by simp⟩, fun i _ => ⟨rfl, fun _ _ _ => rfl, fun _ => rfl⟩⟩
    | none =>
      obtain ⟨-, h2, h3⟩ := addAll_spec kind.defaults s
      refine ⟨by simp only [Session.step, Session.create]; omega, ⟨_, rfl⟩, fun i hi => ?_⟩
      have : (s.step (.create kind none)).1.scan i = s.scan i := h3 i hi
      exact ⟨by rw [this], fun _ _ _ => by rw [this], fun _ => this⟩
  | evaluate j d =>
    simp only [Session.step]
    split
    · exact ⟨le_rfl, ⟨[], by simp⟩, fun i _ => ⟨rfl, fun _ _ _ => rfl, fun _ => rfl⟩⟩
    · rename_i e he
      obtain ⟨h1, h2⟩ := evaluate_keeps s d e
      refine ⟨by rw [h1], ⟨[], by simp [h2]⟩, fun i _ => ?_⟩
      obtain ⟨a, b, c⟩ := evaluate_scan s d e i
      exact ⟨a, b, fun h => c (h e (by simp only [h2]; exact List.mem_of_getElem? he))⟩

theorem step_log (s : Session) (a : Act) : ∀ w ∈ (s.step a).2, AsAsked s w ∧ w.ev ∈ s.evs := by
  intro w hw
  cases a with
  | measurement m => cases hw
  | create kind given => cases hw
  | evaluate j d =>
    simp only [Session.step] at hw
    split at hw
    · cases hw
    · rename_i e he
      obtain ⟨h1, h2⟩ := evaluate_asked s d e w hw
      exact ⟨h2, h1 ▸ List.mem_of_getElem? he⟩

theorem run_evs : ∀ (as : List Act) (s : Session), ∃ new, (s.run as).1.evs = s.evs ++ new
  | [], s => ⟨[], by simp [Session.run]⟩
  | a :: as, s => by
    obtain ⟨n1, h1⟩ := (step_spec s a).2.1
    obtain ⟨n2, h2⟩ := run_evs as (s.step a).1
    exact ⟨n1 ++ n2, by simp only [Session.run]; rw [h2, h1, List.append_assoc]⟩

/-! ## The theorems -/

/-- **C201** for sensing dots (partial: see the refutations for the others): whatever measurements are shared and whoever has used them before,
each scan of a `SensingDot1D` or `SensingDot2D` is the one that it was made for. -/
theorem dot_scans_as_asked_partial (acts : List Act) : ∀ (σ : Session), ∀ w ∈ (σ.run acts).2, w.ref < σ.next → w.ev.kind.IsDot → AsAsked σ w := by
  induction acts with
  | nil => intro σ w hw; cases hw
  | cons a as ih =>
    intro σ w hw hr hd
    simp only [Session.run] at hw
    rcases List.mem_append.1 hw with h | h
    · exact (step_log σ a w h).1
    · obtain ⟨h1, -, h3⟩ := step_spec σ a
      obtain ⟨hn, ho, -⟩ := h3 w.ref hr
      have := ih (σ.step a).1 w h (lt_of_lt_of_le hr h1) hd
      unfold AsAsked at this ⊢
      split at this
      · obtain ⟨p, q, r, t⟩ := this
        exact ⟨p, q, r.trans hn, fun k h1 h2 => (t k h1 h2).trans (ho k h1 h2)⟩
      · obtain ⟨⟨g₁, g₂, x, y, p1, p2, p⟩, r, t⟩ := this
        rw [ho _ (by decide) (by decide)] at p1 p2
        exact ⟨⟨g₁, g₂, x, y, p1, p2, p⟩, r.trans hn, fun k h1 h2 => (t k h1 h2).trans (ho k h1 h2)⟩
      · rename_i h1 h2
        unfold Kind.IsDot at hd
        split at hd
        · rename_i g hg; exact absurd hg (h1 g)
        · rename_i x y z hg; exact absurd hg (h2 x y z)
        · exact hd.elim

/-- **C201** for the other evaluators (partial: if no sensing dot shares the measurement): the scans of a measurement that no evaluator of a
sensing dot refers to have the options that the measurement had in the beginning, whatever is done with other evaluators. -/
theorem scans_as_asked_partial (acts : List Act) (ref : Nat) : ∀ (σ : Session), ref < σ.next →
    (∀ e ∈ (σ.run acts).1.evs, e.kind.IsDot → e.scans.head? ≠ some ref) →
    ((σ.run acts).1.scan ref = σ.scan ref) ∧ ∀ w ∈ (σ.run acts).2, w.ref = ref → ¬ w.ev.kind.IsDot → w.scan = σ.scan ref := by
  induction acts with
  | nil => exact fun σ _ _ => ⟨rfl, fun w hw => by cases hw⟩
  | cons a as ih =>
    intro σ hr hd
    obtain ⟨h1, -, h3⟩ := step_spec σ a
    obtain ⟨new, hnew⟩ := run_evs as (σ.step a).1
    have hsame := (h3 ref hr).2.2 fun e he => hd e (by simp only [Session.run]; rw [hnew]; exact List.mem_append_left _ he)
    obtain ⟨k1, k2⟩ := ih (σ.step a).1 (lt_of_lt_of_le hr h1) hd
    rw [hsame] at k1 k2
    refine ⟨k1, fun w hw he hk => ?_⟩
    simp only [Session.run] at hw
    rcases List.mem_append.1 hw with h | h
    · have := (step_log σ a w h).1
      unfold AsAsked at this
      split at this
      · rename_i hg; rw [hg] at hk; exact absurd trivial hk
      · rename_i hg; rw [hg] at hk; exact absurd trivial hk
      · rw [he] at this; exact this
    · exact k2 w h he hk

/-- **C201** (partial: not if a measurement is given to an evaluator of a sensing dot): sensing dots whose evaluators make their own measurements disturb no
measurement that existed before. -/
theorem default_dots_disturb_nobody_partial (σ : Session) (acts : List Act) (ref : Nat) (hr : ref < σ.next)
    (h0 : ∀ e ∈ σ.evs, e.kind.IsDot → e.scans.head? ≠ some ref)
    (hacts : ∀ kind given, .create kind given ∈ acts → kind.IsDot → given = none) :
    ∀ w ∈ (σ.run acts).2, w.ref = ref → ¬ w.ev.kind.IsDot → w.scan = σ.scan ref := by
  refine (scans_as_asked_partial acts ref σ hr ?_).2
  have key : ∀ (as : List Act) (s : Session), (∀ kind given, .create kind given ∈ as → kind.IsDot → given = none) → ref < s.next →
      (∀ e ∈ s.evs, e.kind.IsDot → e.scans.head? ≠ some ref) →
      ∀ e ∈ (s.run as).1.evs, e.kind.IsDot → e.scans.head? ≠ some ref := by
    intro as
    induction as with
    | nil => exact fun s _ _ h => h
    | cons a as ih =>
      intro s ha hs h
      refine ih (s.step a).1 (fun k g hm => ha k g (List.mem_cons_of_mem _ hm)) (lt_of_lt_of_le hs (step_spec s a).1) ?_
      cases a with
      | measurement m => exact h
      | evaluate j d =>
        simp only [Session.step]
        split
        · exact h
        · rename_i e _
          simp only [(evaluate_keeps s d e).2]
          exact h
      | create kind given =>
        intro e he hd
        cases given with
        | some given =>
          simp only [Session.step, Session.create] at he
          split at he
          · rcases List.mem_append.1 he with h' | h'
            · exact h e h' hd
            · rw [List.mem_singleton.1 h'] at hd
              exact absurd (ha kind (some given) (by simp) hd) (by simp)
          · exact h e he hd
        | none =>
          simp only [Session.step, Session.create] at he
          rcases List.mem_append.1 he with h' | h'
          · exact h e h' hd
          · rw [List.mem_singleton.1 h']
            intro hc
            have := List.mem_of_head? hc
            obtain ⟨x, -, hx⟩ := List.mem_map.1 this
            omega
  exact key acts σ hacts hr h0

/-- **C201** is false for a line scan that is shared with a `SensingDot1D`, in every session: after the dot was evaluated, with or
without success, the other evaluator sweeps the gate of the dot, around the voltage of this gate. -/
theorem shared_line_scan_refuted (σ : Session) (i j ref : Nat) (er : Ev) (l l' : List Nat) (g : String) (hi : σ.evs[i]? = some er)
    (hread : ¬ er.kind.IsDot) (hscan : er.scans = ref :: l) (hj : σ.evs[j]? = some ⟨.dot1 g, ref :: l'⟩) (d d' : Device) :
    ∃ w ∈ (σ.run [.evaluate j d, .evaluate i d']).2, w.ev = er ∧ w.ref = ref ∧ w.scan.options "gate" = some (.text g) ∧
      (∀ x, d.volts g = some x → w.scan.options "center" = some (.num x)) ∧
      ((σ.scan ref).options "gate" ≠ some (.text g) → ¬ AsAsked σ w) := by
  let s := (σ.evaluate d ⟨.dot1 g, ref :: l'⟩).1
  have hs : s.evs = σ.evs := (evaluate_keeps σ d _).2
  have hgate : (s.scan ref).options "gate" = some (.text g) ∧ ∀ x, d.volts g = some x → (s.scan ref).options "center" = some (.num x) := by
    simp only [s, Session.evaluate]
    cases d.volts g with
    | none => simp [Scan.set]
    | some x => simp [Scan.set]
  have hlog : (⟨er, ref, s.scan ref, d'.volts⟩ : Done) ∈ (s.evaluate d' er).2.1 := by
    unfold Session.evaluate
    rw [hscan]
    cases hk : er.kind with
    | dot1 g => rw [hk] at hread; exact absurd trivial hread
    | dot2 a b c => rw [hk] at hread; exact absurd trivial hread
    | leadTime => exact measureAll_head _ _ _ _ _
    | tunnelCoupling => exact measureAll_head _ _ _ _ _
    | loadTime => exact measureAll_head _ _ _ _ _
    | leadTransition _ => exact measureAll_head _ _ _ _ _
  refine ⟨⟨er, ref, s.scan ref, d'.volts⟩, ?_, rfl, rfl, hgate.1, hgate.2, fun hne h => ?_⟩
  · simp only [Session.run, Session.step, hj]
    refine List.mem_append_right _ (List.mem_append_left _ ?_)
    have : (σ.evaluate d ⟨.dot1 g, ref :: l'⟩).1.evs[i]? = some er := by
      rw [show (σ.evaluate d ⟨.dot1 g, ref :: l'⟩).1.evs = σ.evs from hs, hi]
    rw [this]
    exact hlog
  · unfold AsAsked at h
    dsimp only at h
    split at h
    · rename_i hg; rw [hg] at hread; exact absurd trivial hread
    · rename_i hg; rw [hg] at hread; exact absurd trivial hread
    · rw [← h] at hne
      exact hne hgate.1

/-- **C201** is false for a measurement that is shared with a `SensingDot2D`, in every session: after the scan of the dot, the evaluators of transitions and
of the tunnel coupling raise, because the center is a list. -/
theorem shared_2d_scan_refuted (σ : Session) (ref : Nat) (er : Ev) (l l' : List Nat) (a b : String) (r : ℝ)
    (hread : er.kind = .tunnelCoupling ∨ ∃ sw, er.kind = .leadTransition sw) (hscan : er.scans = ref :: l) (d d' : Device)
    (hscanned : (σ.evaluate d ⟨.dot2 a b r, ref :: l'⟩).2.1 ≠ []) :
    ∃ e, ((σ.evaluate d ⟨.dot2 a b r, ref :: l'⟩).1.evaluate d' er).2.2 = .error e := by
  let s := (σ.evaluate d ⟨.dot2 a b r, ref :: l'⟩).1
  have hcenter : ∃ x y, (s.scan ref).options "center" = some (.pair x y) := by
    revert hscanned
    simp only [s, Session.evaluate]
    cases gateVoltage d (σ.scan ref).options "gate1" with
    | error e => intro h; exact absurd rfl h
    | ok x =>
      cases gateVoltage d (σ.scan ref).options "gate2" with
      | error e => intro h; exact absurd rfl h
      | ok y => intro _; exact ⟨some x, some y, by simp [Scan.set]⟩
  obtain ⟨x, y, hc⟩ := hcenter
  have hax : ∃ e, axis (s.scan ref).options = .error e := by
    unfold axis
    rw [hc]
    rcases (s.scan ref).options "range" with _ | (_ | _ | _ | _) <;> exact ⟨_, rfl⟩
  obtain ⟨e, he⟩ := hax
  change ∃ e, (s.evaluate d' er).2.2 = .error e
  unfold Session.evaluate
  rw [hscan]
  rcases hread with hk | ⟨sw, hk⟩
  · rw [hk]
    dsimp only
    rw [he]
    split <;> exact ⟨_, rfl⟩
  · rw [hk]
    dsimp only
    rw [he]
    split <;> exact ⟨_, rfl⟩

/-- **C201** is false for the scans that experiments derived from `BasicDQD` offer: they belong to the class, so that a sensing dot of one experiment
changes the scans of another one. -/
theorem class_scans_refuted (a b : Nat) (g : String) (sweeping : List String) (d d' : Device) (hg : g ≠ "RFA") :
    (Session.new.scan ((measurementsOf b).headD 0)).options "gate" = some (.text "RFA") ∧
    ∃ w ∈ (Session.new.run [.create (.dot1 g) (some [(measurementsOf a).headD 0]),
        .create (.leadTransition sweeping) (some [(measurementsOf b).headD 0]), .evaluate 0 d, .evaluate 1 d']).2,
      w.ev.kind = .leadTransition sweeping ∧ w.scan.options "gate" = some (.text g) ∧ ¬ AsAsked Session.new w := by
  have h0 : (Session.new.scan 0).options "gate" = some (.text "RFA") := by
    simp [Session.new, classScans, Scan.make, List.lookup]
  refine ⟨h0, ?_⟩
  let σ : Session := { Session.new with evs := [⟨.dot1 g, [0]⟩, ⟨.leadTransition sweeping, [0]⟩] }
  have hrun : (Session.new.run [.create (.dot1 g) (some [(measurementsOf a).headD 0]),
      .create (.leadTransition sweeping) (some [(measurementsOf b).headD 0]), .evaluate 0 d, .evaluate 1 d']).2 =
      (σ.run [.evaluate 0 d, .evaluate 1 d']).2 := by
    have h1 : Session.new.create (.dot1 g) (some [0]) = { Session.new with evs := [⟨.dot1 g, [0]⟩] } := by
      simp [Session.create, Session.new]
    have h2 : Session.create { Session.new with evs := [⟨.dot1 g, [0]⟩] } (.leadTransition sweeping) (some [0]) = σ := by
      simp [Session.create, Session.new, σ]
    simp only [measurementsOf, List.headD_cons]
    rw [Session.run, Session.run]
    simp only [Session.step, h1, h2, List.nil_append]
  rw [hrun]
  obtain ⟨w, hw, h1, h2, h3, -, h5⟩ := shared_line_scan_refuted σ 1 0 0 ⟨.leadTransition sweeping, [0]⟩ [] [] g rfl (by exact fun h => h) rfl rfl d d'
  refine ⟨w, hw, by rw [h1], h3, fun h => h5 ?_ ?_⟩
  · rw [show (σ.scan 0).options "gate" = some (.text "RFA") from h0]
    simp only [ne_eq, Option.some.injEq, Opt.text.injEq]
    exact fun h => hg h.symm
  · exact h

/-! ## Examples -/

/-- A device with a voltage of one gate. -/
noncomputable def oneGate : Device := ⟨fun g => if g = "SDB2" then some 1 else none, fun _ => .ok ()⟩

/-- A sensing dot that makes its own measurement and a lead transition with the line scan of the class: the hypotheses of
`default_dots_disturb_nobody_partial`. -/
example : ∀ w ∈ (Session.new.run [.create (.dot1 "SDB2") none, .create (.leadTransition ["RFA"]) (some [0]), .evaluate 0 oneGate,
    .evaluate 1 oneGate]).2, w.ref = 0 → ¬ w.ev.kind.IsDot → w.scan = Session.new.scan 0 :=
  default_dots_disturb_nobody_partial _ _ 0 (by simp [Session.new]) (by simp [Session.new]) (by
    intro kind given h hd
    simp only [List.mem_cons, Act.create.injEq, reduceCtorEq, List.not_mem_nil, or_false] at h
    rcases h with ⟨-, h⟩ | ⟨rfl, -⟩
    · exact h
    · exact hd.elim)

/-- There is such a scan. -/
example : ∃ w ∈ (Session.new.run [.create (.dot1 "SDB2") none, .create (.leadTransition ["RFA"]) (some [0]), .evaluate 0 oneGate,
    .evaluate 1 oneGate]).2, w.ref = 0 ∧ ¬ w.ev.kind.IsDot := by
  refine ⟨⟨⟨.leadTransition ["RFA"], [0]⟩, 0, Session.new.scan 0, oneGate.volts⟩, ?_, rfl, fun h => h⟩
  simp [Session.run, Session.step, Session.create, Session.new, Session.addAll, Session.add, Kind.defaults, Session.evaluate, oneGate,
    measureAll, axis]

/-- A scan of a sensing dot that shares the line scan of the class with another one: the hypotheses of `dot_scans_as_asked_partial`. -/
example : ∃ w ∈ ((Session.new.create (.dot1 "SDB1") (some [0])).create (.dot1 "SDB2") (some [0])).run [.evaluate 1 oneGate] |>.2,
    w.ref = 0 ∧ w.ev.kind = .dot1 "SDB2" := by
  simp [Session.run, Session.step, Session.create, Session.new, Session.evaluate, oneGate, measureAll]

/-- A `SensingDot2D` that scans. -/
example : (Session.evaluate (Session.new.add (.make "2d_scan" [("gate1", .text "SDB2"), ("gate2", .text "SDB2"), ("range", .num 1)]))
    oneGate ⟨.dot2 "SDB2" "SDB2" 1, [4]⟩).2.1 ≠ [] := by
  simp [Session.evaluate, Session.add, Session.new, gateVoltage, Scan.make, List.lookup, oneGate, measureAll]

end Qtune.Evaluator.Share
