import Verif.History.Lemmas

/-!
# Properties of the history

* C60: `rows_are_runs`, `run_append_ok`, `run_history`
* C61: `latest_recorded_partial`, `latest_recorded_refuted`
* C62: `Verif/History/Gradients.lean`
-/

namespace Qtune.History

variable {γ κ ρ π W X V P C : Type} [DecidableEq γ]

/-- C60: whenever appending autotuners to a new history succeeds, the rows are the maximal runs of equal voltages,
with the path of the last autotuner of each run.  It succeeds if a tuner had been evaluated whenever the voltages
changed. -/
theorem rows_are_runs (l : List (View γ κ ρ × π)) :
    (∀ h, appendAll Hist.empty l = .ok h →
      h.rows.map (·.voltages) = (runs (l.map fun a => (a.1.voltages, a.2))).map Prod.fst ∧
      h.paths = (runs (l.map fun a => (a.1.voltages, a.2))).map Prod.snd) ∧
    (MovesEvaluated l → ∃ h, appendAll Hist.empty l = .ok h) := by
  cases l with
  | nil =>
    refine ⟨?_, fun _ => ⟨_, rfl⟩⟩
    intro h hh
    cases Except.ok.inj hh
    exact ⟨rfl, rfl⟩
  | cons a l =>
    obtain ⟨a, p⟩ := a
    obtain ⟨h1, e1, hp, r, e2, e3⟩ := append_first (a := a) (p := p)
    have hv : r.voltages = a.voltages := by
      have := hp.1
      rw [e2] at this
      simpa using this
    constructor
    · intro h hh
      unfold appendAll at hh
      rw [e1] at hh
      exact appendAll_points l (init := []) hp hh
    · intro hm
      unfold appendAll
      rw [e1]
      refine appendAll_ok l (rs := []) e2 e3 ?_ hm.tail
      intro b hb
      rw [hv]
      cases l with
      | nil => simp at hb
      | cons c l =>
        simp at hb
        subst hb
        exact (List.isChain_cons_cons.mp hm).1

/-- Three autotuners at two voltage points. -/
example : ∃ h, appendAll (Hist.empty : Hist Nat String Nat Nat)
    [(⟨5, [[("a", 1)]], 0, false, true⟩, 10), (⟨5, [[("a", 1)]], 0, true, false⟩, 11),
      (⟨6, [[("a", 2)]], 1, false, false⟩, 12)] = .ok h ∧
    h.rows.map (·.voltages) = [5, 6] ∧ h.paths = [11, 12] :=
  ⟨_, rfl, rfl, rfl⟩

/-- Without the condition an append may raise `ValueError`. -/
example : appendAll (Hist.empty : Hist Nat String Nat Nat)
    [(⟨5, [[("a", 1)]], 0, false, true⟩, 10), (⟨6, [[("a", 1)]], 0, false, false⟩, 11),
      (⟨6, [[("a", 2)]], 1, false, false⟩, 12)] = .error .valueError := rfl

/-! ## Runs of the autotuner -/

/-- The outcome of a successful `iterate`. -/
theorem iterate_cases {H : Autotuner.Hierarchy W X V P C} {s s' : Autotuner.State W X V}
    {evs : List (Autotuner.Event W V P)} (h : Autotuner.iterate H (.ok ()) s = (s', evs, .ok ())) :
    (∃ v x, s.pending = some v ∧ s' = { s with expt := x, index := 0, pending := none } ∧
      evs = [.wrote v (.ok ()), .saved s'.snapshot]) ∨
    (∃ w x b, s.pending = none ∧ s.status = false ∧ s.index < H.len ∧
      H.isTuned s.index (H.read s.expt) s.tuners s.expt = ((w, x), .ok b) ∧
      s' = { s with tuners := w, expt := x, index := if b then s.index + 1 else s.index, status := !b } ∧
      evs = [.evaluated s.index (H.read s.expt) (.ok b), .saved s'.snapshot]) ∨
    (∃ w v p, s.pending = none ∧ s.status = true ∧ s.index < H.len ∧
      H.nextVolt s.index p s.tuners = (w, .ok v) ∧
      s' = { s with tuners := w, pending := some v, status := false } ∧
      evs = [.suggested s.index p (.ok v), .saved s'.snapshot]) := by
  unfold Autotuner.iterate at h
  split at h
  · cases h
  · cases h
  · split at h
    · cases h
    · split at h
      · rename_i v hv
        split at h
        · cases h
        · split at h
          · cases h
          · rename_i x hx
            cases h
            exact .inl ⟨v, x, hv, rfl, rfl⟩
      · rename_i hp
        split at h
        · cases h
        · rename_i hl
          have hl : s.index < H.len := by omega
          split at h
          · rename_i hs
            split at h
            · cases h
            · rename_i w x hx
              cases h
              exact .inr (.inl ⟨w, x, true, hp, hs, hl, hx, by simp [hs], rfl⟩)
            · rename_i w x hx
              cases h
              exact .inr (.inl ⟨w, x, false, hp, hs, hl, hx, by simp, rfl⟩)
          · rename_i hs
            split at h
            · cases h
            · rename_i w v hx
              cases h
              exact .inr (.inr ⟨w, v, _, hp, by simpa using hs, hl, hx, rfl, rfl⟩)

theorem sinceWrite_append (evs : List (Autotuner.Event W V P)) (e : Autotuner.Event W V P)
    (sn : Autotuner.Snapshot W V) :
    sinceWrite (evs ++ [e, .saved sn]) = match e with
      | .wrote _ _ => []
      | .evaluated i _ (.ok _) => sinceWrite evs ++ [i]
      | _ => sinceWrite evs := by
  unfold sinceWrite
  rw [List.foldl_append]
  rfl

/-- What holds after each `iterate` and `append`. -/
structure Inv [DecidableEq κ] (R : Reader W γ κ ρ) (H : Autotuner.Hierarchy W X V P C)
    (s : Autotuner.State W X V) (h : Hist γ κ ρ π) (evs : List (Autotuner.Event W V P)) : Prop where
  since : sinceWrite evs = List.range (R.view H s).evaluated
  pend : s.pending.isSome → s.status = false
  empty : h.rows = [] → s.index = 0 ∧ s.status = false ∧ s.pending = none ∧ h = Hist.empty
  row : h.rows ≠ [] → ∃ rs r k, h.rows = rs ++ [r] ∧ r.voltages = R.lastVoltages s.tuners ∧
    r.tunerIndex = some k ∧ (0 < (R.view H s).evaluated → k = s.index) ∧
    ∀ i < (R.view H s).evaluated, ∀ c y, (c, y) ∈ R.cols s.tuners i → r.cells.lookup c = some y

variable [DecidableEq κ]

theorem inv_step {R : Reader W γ κ ρ} {H : Autotuner.Hierarchy W X V P C} {toRow : V → γ}
    (hF : Faithful R H toRow) {s s' : Autotuner.State W X V} {h : Hist γ κ ρ π}
    {evs evs' : List (Autotuner.Event W V P)} {path : π} (hi : Inv R H s h evs) (hm : AlwaysMoves R H toRow s h)
    (hs : Autotuner.iterate H (.ok ()) s = (s', evs', .ok ())) :
    ∃ h', append h (R.view H s') path = .ok h' ∧ Inv R H s' h' (evs ++ evs') := by
  rcases iterate_cases hs with ⟨v, x, hp, rfl, rfl⟩ | ⟨w, x, b, hp, hst, hl, ht, rfl, rfl⟩ |
    ⟨w, v, p, hp, hst, hl, ht, rfl, rfl⟩
  · -- voltages set
    have hst := hi.pend (by simp [hp])
    have he : (R.view H { s with expt := x, index := 0, pending := none }).evaluated = 0 := by
      simp [Reader.view, View.evaluated, hst]
    have hne : h.rows ≠ [] := fun h0 => by have := (hi.empty h0).2.2.1; rw [hp] at this; cases this
    obtain ⟨rs, r, k, h1, h2, h3, h4, h5⟩ := hi.row hne
    obtain ⟨h', rs', r', k', e1, e2, e3, e4, e5⟩ := append_ok (a := R.view H { s with expt := x, index := 0, pending := none })
      path h1 h3 (fun hc => absurd h2 hc)
    refine ⟨h', e1, ?_, by simp, ?_, ?_⟩
    · rw [sinceWrite_append, he]; rfl
    · intro h0; rw [e2] at h0; simp at h0
    · intro _
      exact ⟨rs', r', k', e2, e3, e4, by rw [he]; simp, by rw [he]; simp⟩
  · -- tuner evaluated
    obtain ⟨f1, f2⟩ := hF.evaluated _ _ _ _ _ _ _ ht
    have he0 : (R.view H s).evaluated = s.index := by simp [Reader.view, View.evaluated, hst, hp]
    set s' : Autotuner.State W X V :=
      { s with tuners := w, expt := x, index := if b then s.index + 1 else s.index, status := !b } with hs'
    have he : (R.view H s').evaluated = s.index + 1 := by
      cases b <;> simp [hs', Reader.view, View.evaluated, hp]
    have hsince : sinceWrite (evs ++ [.evaluated s.index (H.read s.expt) (.ok b), .saved s'.snapshot]) =
        List.range (R.view H s').evaluated := by
      rw [sinceWrite_append, he, List.range_succ, hi.since, he0]
    have hpend : s'.pending.isSome → s'.status = false := by simp [hs', hp]
    by_cases h0 : h.rows = []
    · obtain ⟨g1, g2, g3, rfl⟩ := hi.empty h0
      have e1 : append (Hist.empty : Hist γ κ ρ π) (R.view H s') path =
          .ok ⟨[(firstRow (R.view H s')).update (R.view H s')
            (slice (R.view H s').tuners s'.index (R.view H s').evaluated)], [path]⟩ := by
        unfold append
        simp only [Hist.empty, List.isEmpty_nil, if_true, List.getLast?_singleton, firstRow, stay]
        rw [if_neg (by rw [he]; omega)]
        rfl
      refine ⟨_, e1, hsince, hpend, by simp, fun _ => ⟨[], _, s'.index, rfl, rfl, rfl, fun _ => rfl, ?_⟩⟩
      intro i hi' c y hc
      have hi0 : i = 0 := by omega
      subst hi0
      refine lookup_of_mem' ?_ ?_
      · refine List.mem_append_right _ (mem_columns.mpr ⟨R.cols w 0, ?_, hc⟩)
        exact List.mem_map.mpr ⟨0, List.mem_range.mpr (by omega), rfl⟩
      · intro z hz
        have : ∃ t ∈ (R.view H s').tuners, (c, z) ∈ t := by
          rcases List.mem_append.mp hz with hz | hz
          · obtain ⟨t, ht1, ht2⟩ := mem_columns.mp hz
            exact ⟨t, mem_slice ht1, ht2⟩
          · exact mem_columns.mp hz
        obtain ⟨t, ht1, ht2⟩ := this
        obtain ⟨j, -, rfl⟩ := List.mem_map.mp ht1
        exact hF.agree _ _ _ _ _ _ ht2 hc
    · obtain ⟨rs, r, k, h1, h2, h3, h4, h5⟩ := hi.row h0
      obtain ⟨h', rs', r', k', e1, e2, e3, e4, e5⟩ := append_ok (a := R.view H s') path h1 h3
        (fun _ => by rw [he]; omega)
      have hne : (R.view H s').evaluated ≠ 0 := by rw [he]; omega
      have hown : ∀ c y, (c, y) ∈ R.cols w s.index → (R.cols w s.index).lookup c = some y :=
        fun c y hc => lookup_of_mem' hc fun z hz => hF.agree _ _ _ _ _ _ hz hc
      refine ⟨h', e1, hsince, hpend, by rw [e2]; simp, fun _ => ⟨rs', r', k', e2, e3, e4, ?_, ?_⟩⟩
      · intro _
        rcases e5 with ⟨-, -, e5⟩ | ⟨-, rfl⟩
        · unfold stay at e5
          rw [h3] at e5
          simp only [hne, if_false] at e5
          cases Except.ok.inj e5
          exact (Option.some.inj e4).symm
        · unfold newRow at e4
          rw [if_neg hne] at e4
          exact (Option.some.inj e4).symm
      · intro i hi' c y hc
        rw [he] at hi'
        by_cases hz : s.index = 0
        · -- the first tuner, at new voltages
          have hv : r.voltages ≠ (R.view H s').voltages := by
            have := hm h0 hz hp hst
            rw [h2]
            show R.lastVoltages s.tuners ≠ R.lastVoltages w
            rw [f2, if_pos hz]
            exact this.symm
          rcases e5 with ⟨e5, -⟩ | ⟨-, rfl⟩
          · exact absurd e5 hv
          · have hi0 : i = 0 := by omega
            subst hi0
            unfold newRow
            rw [if_neg hne, he, hz]
            show (columns (slice ((List.range H.len).map (R.cols w)) 0 (0 + 1))).lookup c = some y
            rw [slice_one _ (by omega)]
            rw [hz] at hown
            simpa [columns] using hown c y hc
        · have hv : r.voltages = (R.view H s').voltages := by
            rw [h2]
            show R.lastVoltages s.tuners = R.lastVoltages w
            rw [f2, if_neg hz]
          rcases e5 with ⟨-, -, e5⟩ | ⟨e5, -⟩
          · have hk : k = s.index := h4 (by rw [he0]; omega)
            unfold stay at e5
            rw [h3] at e5
            simp only [hne, if_false] at e5
            cases Except.ok.inj e5
            rw [hk, he]
            show (columns (slice ((List.range H.len).map (R.cols w)) s.index (s.index + 1)) ++ r.cells).lookup c = some y
            rw [slice_one _ hl]
            by_cases hii : i = s.index
            · subst hii
              exact lookup_append_left (by simpa [columns] using hown c y hc)
            · by_cases hsh : ∃ z, (c, z) ∈ R.cols w s.index
              · obtain ⟨z, hz⟩ := hsh
                obtain rfl := hF.agree _ _ _ _ _ _ hc hz
                exact lookup_append_left (by simpa [columns] using hown c y hz)
              · have hc' : (c, y) ∈ R.cols s.tuners i := (f1 i c y hii hc).resolve_left hsh
                rw [lookup_append_right]
                · exact h5 i (by omega) c y hc'
                · intro z hz
                  simp only [columns, List.reverse_singleton, List.flatten_cons, List.flatten_nil,
                    List.append_nil] at hz
                  exact hsh ⟨z, hz⟩
          · exact absurd hv e5
  · -- next voltages requested
    obtain ⟨f1, f2⟩ := hF.suggested _ _ _ _ _ ht
    have he0 : (R.view H s).evaluated = s.index + 1 := by simp [Reader.view, View.evaluated, hst]
    set s' : Autotuner.State W X V := { s with tuners := w, pending := some v, status := false } with hs'
    have he : (R.view H s').evaluated = s.index + 1 := by simp [hs', Reader.view, View.evaluated]
    have hne : (R.view H s').evaluated ≠ 0 := by rw [he]; omega
    have h0 : h.rows ≠ [] := fun h0 => by have := (hi.empty h0).2.1; rw [hst] at this; cases this
    obtain ⟨rs, r, k, h1, h2, h3, h4, h5⟩ := hi.row h0
    obtain ⟨h', rs', r', k', e1, e2, e3, e4, e5⟩ := append_ok (a := R.view H s') path h1 h3
      (fun _ => by rw [he]; omega)
    have hv : r.voltages = (R.view H s').voltages := by rw [h2]; exact f2.symm
    have hk : k = s.index := h4 (by rw [he0]; omega)
    have hown : ∀ c y, (c, y) ∈ R.cols w s.index → (R.cols w s.index).lookup c = some y :=
      fun c y hc => lookup_of_mem' hc fun z hz => hF.agree _ _ _ _ _ _ hz hc
    have hr' : r' = r.update (R.view H s') [R.cols w s.index] := by
      rcases e5 with ⟨-, -, e5⟩ | ⟨e5, -⟩
      · unfold stay at e5
        rw [h3] at e5
        simp only [hne, if_false] at e5
        cases Except.ok.inj e5
        rw [hk, he]
        show r.update _ (slice ((List.range H.len).map (R.cols w)) s.index (s.index + 1)) = _
        rw [slice_one _ hl]
      · exact absurd hv e5
    refine ⟨h', e1, ?_, by simp [hs'], by rw [e2]; simp, fun _ => ⟨rs', r', k', e2, e3, e4, ?_, ?_⟩⟩
    · rw [sinceWrite_append, he, hi.since, he0]
    · intro _
      rw [hr'] at e4
      exact (Option.some.inj e4).symm
    · intro i hi' c y hc
      rw [he] at hi'
      rw [hr']
      show (columns [R.cols w s.index] ++ r.cells).lookup c = some y
      by_cases hii : i = s.index
      · subst hii
        exact lookup_append_left (by simpa [columns] using hown c y hc)
      · by_cases hsh : ∃ z, (c, z) ∈ R.cols w s.index
        · obtain ⟨z, hz⟩ := hsh
          obtain rfl := hF.agree _ _ _ _ _ _ hc hz
          exact lookup_append_left (by simpa [columns] using hown c y hz)
        · have hc' : (c, y) ∈ R.cols s.tuners i := (f1 i c y hii hc).resolve_left hsh
          rw [lookup_append_right]
          · exact h5 i (by omega) c y hc'
          · intro z hz
            simp only [columns, List.reverse_singleton, List.flatten_cons, List.flatten_nil,
              List.append_nil] at hz
            exact hsh ⟨z, hz⟩

theorem inv_fresh {R : Reader W γ κ ρ} {H : Autotuner.Hierarchy W X V P C} (w : W) (x : X) :
    Inv R H (Autotuner.fresh w x) (Hist.empty : Hist γ κ ρ π) [] :=
  ⟨rfl, by simp [Autotuner.fresh], fun _ => ⟨rfl, rfl, rfl, rfl⟩, by simp [Hist.empty]⟩

theorem inv_recorded {R : Reader W γ κ ρ} {H : Autotuner.Hierarchy W X V P C} {toRow : V → γ}
    (hF : Faithful R H toRow) (path : Nat → π) (w : W) (x : X) (n : Nat) :
    (∀ m < n, ∀ s h evs, recorded R H path (Autotuner.fresh w x) m = .ok (s, h, evs) → AlwaysMoves R H toRow s h) →
    ∀ s h evs, recorded R H path (Autotuner.fresh w x) n = .ok (s, h, evs) → Inv R H s h evs := by
  induction n with
  | zero =>
    intro _ s h evs hr
    cases Except.ok.inj hr
    exact inv_fresh w x
  | succ n ih =>
    intro hm s h evs hr
    unfold recorded at hr
    split at hr
    · cases hr
    · rename_i s₁ h₁ evs₁ hr₁
      have hi := ih (fun m hlt => hm m (by omega)) _ _ _ hr₁
      have hmv := hm n (by omega) _ _ _ hr₁
      split at hr
      · cases hr
      · rename_i s₂ evs₂ hit
        obtain ⟨h', e1, e2⟩ := inv_step (path := path n) hF hi hmv hit
        rw [e1] at hr
        cases Except.ok.inj hr
        exact e2

/-- C61 (partial): if every change of the voltages really moves the gates, the last row contains the parameters of
the latest evaluation of every tuner that was evaluated since the voltages were set, and its current gradients, also if several tuners share their
gradient estimators.  Missing: steps to the same
voltages, see `latest_recorded_refuted`. -/
theorem latest_recorded_partial {R : Reader W γ κ ρ} {H : Autotuner.Hierarchy W X V P C} {toRow : V → γ}
    (hF : Faithful R H toRow) (path : Nat → π) (w : W) (x : X) (n : Nat)
    (hm : ∀ m < n, ∀ s h evs, recorded R H path (Autotuner.fresh w x) m = .ok (s, h, evs) →
      AlwaysMoves R H toRow s h)
    {s : Autotuner.State W X V} {h : Hist γ κ ρ π} {evs : List (Autotuner.Event W V P)}
    (hr : recorded R H path (Autotuner.fresh w x) n = .ok (s, h, evs)) : LatestRecorded R s h evs := by
  have hi := inv_recorded hF path w x n hm s h evs hr
  intro i hmem
  rw [hi.since, List.mem_range] at hmem
  have hne : h.rows ≠ [] := fun h0 => by
    obtain ⟨h1, h2, h3, -⟩ := hi.empty h0
    simp [Reader.view, View.evaluated, h1, h2, h3] at hmem
  obtain ⟨rs, r, k, h1, h2, h3, h4, h5⟩ := hi.row hne
  exact ⟨r, by rw [h1]; simp, h2, h5 i hmem⟩

omit [DecidableEq κ] in
/-- The last row has the voltages of the latest evaluation and an index. -/
theorem weak_step {R : Reader W γ κ ρ} {H : Autotuner.Hierarchy W X V P C} {s s' : Autotuner.State W X V}
    {h : Hist γ κ ρ π} {evs' : List (Autotuner.Event W V P)} (p : π)
    (hr : h = Hist.empty ∨ ∃ rs r k, h.rows = rs ++ [r] ∧ r.voltages = R.lastVoltages s.tuners ∧
      r.tunerIndex = some k)
    (hs : Autotuner.iterate H (.ok ()) s = (s', evs', .ok ())) :
    ∃ h', append h (R.view H s') p = .ok h' ∧ ∃ rs r k, h'.rows = rs ++ [r] ∧
      r.voltages = R.lastVoltages s'.tuners ∧ r.tunerIndex = some k := by
  rcases hr with rfl | ⟨rs, r, k, h1, h2, h3⟩
  · obtain ⟨h', e1, e2, r, e3, e4⟩ := append_first (π := π) (a := R.view H s') (p := p)
    refine ⟨h', e1, [], r, _, e3, ?_, e4⟩
    have := e2.1
    rw [e3] at this
    exact List.singleton_inj.mp this
  · have hmove : r.voltages ≠ (R.view H s').voltages → 0 < (R.view H s').evaluated := by
      intro hne
      rcases iterate_cases hs with ⟨v, x, hp, rfl, rfl⟩ | ⟨w, x, b, hp, hst, hl, ht, rfl, rfl⟩ |
        ⟨w, v, p, hp, hst, hl, ht, rfl, rfl⟩
      · exact absurd h2 hne
      · cases b <;> simp [Reader.view, View.evaluated, hp]
      · simp [Reader.view, View.evaluated]
    obtain ⟨h', rs', r', k', e1, e2, e3, e4, -⟩ := append_ok p h1 h3 hmove
    exact ⟨h', e1, rs', r', k', e2, e3, e4⟩

omit [DecidableEq κ] in
/-- C60: in a run of the autotuner that is appended after each successful `iterate`, appending never raises: an
exception comes from `iterate`. -/
theorem run_append_ok (R : Reader W γ κ ρ) (H : Autotuner.Hierarchy W X V P C) (path : Nat → π) (w : W) (x : X)
    (n : Nat) (e : PyErr) (hr : recorded R H path (Autotuner.fresh w x) n = .error e) :
    ∃ m < n, ∃ s h evs, recorded R H path (Autotuner.fresh w x) m = .ok (s, h, evs) ∧
      (Autotuner.iterate H (.ok ()) s).2.2 = .error e := by
  have key : ∀ n s h evs, recorded R H path (Autotuner.fresh w x) n = .ok (s, h, evs) →
      h = Hist.empty ∨ ∃ rs r k, h.rows = rs ++ [r] ∧ r.voltages = R.lastVoltages s.tuners ∧
        r.tunerIndex = some k := by
    intro n
    induction n with
    | zero =>
      intro s h evs hr
      cases Except.ok.inj hr
      exact .inl rfl
    | succ m ih =>
      intro s h evs hr
      unfold recorded at hr
      split at hr
      · cases hr
      · rename_i s₁ h₁ evs₁ hr₁
        split at hr
        · cases hr
        · rename_i s₂ evs₂ hit
          obtain ⟨h', e1, e2⟩ := weak_step (path m) (ih _ _ _ hr₁) hit
          rw [e1] at hr
          cases Except.ok.inj hr
          exact .inr e2
  induction n with
  | zero => cases hr
  | succ m ih =>
    unfold recorded at hr
    split at hr
    · rename_i e' hr₁
      cases Except.error.inj hr
      obtain ⟨k, hk, rest⟩ := ih hr₁
      exact ⟨k, by omega, rest⟩
    · rename_i s₁ h₁ evs₁ hr₁
      refine ⟨m, by omega, s₁, h₁, evs₁, hr₁, ?_⟩
      split at hr
      · rename_i hit
        rw [hit]
        cases Except.error.inj hr
        rfl
      · rename_i s₂ evs₂ hit
        obtain ⟨h', e1, e2⟩ := weak_step (path m) (key _ _ _ _ hr₁) hit
        rw [e1] at hr
        cases hr

omit [DecidableEq κ] in
/-- C60: the history of a run of the autotuner is the history of the appended autotuners. -/
theorem run_history (R : Reader W γ κ ρ) (H : Autotuner.Hierarchy W X V P C) (path : Nat → π)
    (s₀ : Autotuner.State W X V) (n : Nat) :
    ∀ s h evs, recorded R H path s₀ n = .ok (s, h, evs) →
      ∃ l : List (View γ κ ρ × π), appendAll Hist.empty l = .ok h ∧ l.map Prod.snd = (List.range n).map path ∧
        (0 < n → ∃ p, l.getLast? = some (R.view H s, p)) := by
  have snoc : ∀ (l : List (View γ κ ρ × π)) (h h' : Hist γ κ ρ π) a p, appendAll h l = .ok h' →
      appendAll h (l ++ [(a, p)]) = append h' a p := by
    intro l
    induction l with
    | nil =>
      intro h h' a p hh
      cases Except.ok.inj hh
      simp only [List.nil_append, appendAll]
      split <;> simp_all
    | cons b l ih =>
      obtain ⟨b, q⟩ := b
      intro h h' a p hh
      simp only [List.cons_append, appendAll] at hh ⊢
      split at hh
      · cases hh
      · exact ih _ _ _ _ hh
  induction n with
  | zero =>
    intro s h evs hr
    cases Except.ok.inj hr
    exact ⟨[], rfl, rfl, by simp⟩
  | succ m ih =>
    intro s h evs hr
    unfold recorded at hr
    split at hr
    · cases hr
    · rename_i s₁ h₁ evs₁ hr₁
      split at hr
      · cases hr
      · rename_i s₂ evs₂ hit
        split at hr
        · cases hr
        · rename_i h₂ hap
          cases Except.ok.inj hr
          obtain ⟨l, e1, e2, -⟩ := ih _ _ _ hr₁
          refine ⟨l ++ [(R.view H s, path m)], ?_, ?_, fun _ => ⟨path m, by simp⟩⟩
          · rw [snoc l _ _ _ _ e1, hap]
          · simp [e2, List.range_succ]

/-! ## The parameters of a repeated evaluation are lost -/

/-- Two tuners; the first is always tuned, the second never is.  The parameters are the numbers of evaluations; `next`
gives the voltages for the number of evaluations of the second tuner. -/
def H₁ (next : Nat → Nat) : Autotuner.Hierarchy ((Nat → Nat) × Nat) Nat Nat Unit Unit where
  len := 2
  ready _ _ _ := .ok true
  read x := x
  hasNaN _ := false
  setVolt v _ := (v, .ok ())
  isTuned i v w x :=
    (((fun j => if j = i then w.1 j + 1 else w.1 j, if i = 0 then v else w.2), x), .ok (i == 0))
  nextVolt _ _ w := (w, .ok (next (w.1 1)))
  tunedParams _ _ := ()
  restartTuners _ w := (w, .ok ())
  nChanges _ := 0
  applyTargets _ w := (w, .ok ())

/-- The column `i + 1` for each tuner, and a common one with the number of all evaluations. -/
def R₁ : Reader ((Nat → Nat) × Nat) Nat Nat Nat where
  lastVoltages w := w.2
  cols w i := [(i + 1, w.1 i), (0, w.1 0 + w.1 1)]

theorem faithful₁ (next : Nat → Nat) : Faithful R₁ (H₁ next) id where
  evaluated i v w x w' x' b h := by
    simp only [H₁] at h
    cases h
    refine ⟨fun j c y hj hc => ?_, rfl⟩
    simp only [R₁, List.mem_cons, Prod.mk.injEq, List.not_mem_nil, or_false] at hc ⊢
    rcases hc with ⟨rfl, rfl⟩ | ⟨rfl, rfl⟩
    · exact .inr (.inl ⟨rfl, by simp [hj]⟩)
    · exact .inl ⟨_, .inr ⟨rfl, rfl⟩⟩
  suggested i p w w' v h := by
    cases h
    exact ⟨fun j c y _ hc => .inr hc, rfl⟩
  agree i j w c y z h1 h2 := by
    simp only [R₁, List.mem_cons, Prod.mk.injEq, List.not_mem_nil, or_false] at h1 h2
    rcases h1 with ⟨h1, rfl⟩ | ⟨h1, rfl⟩ <;> rcases h2 with ⟨h2, rfl⟩ | ⟨h2, rfl⟩
    · obtain rfl : i = j := by omega
      rfl
    · omega
    · omega
    · rfl

/-- A run in which the voltages move: two rows, and the hypotheses of `latest_recorded_partial`. -/
example : ∃ s h evs, recorded R₁ (H₁ id) id (Autotuner.fresh (fun _ => 0, 0) 0) 5 = .ok (s, h, evs) ∧
    h.rows.map (·.voltages) = [0, 1] ∧ LatestRecorded R₁ s h evs ∧ sinceWrite evs = [0] := by
  refine ⟨_, _, _, rfl, rfl, ?_, rfl⟩
  refine latest_recorded_partial (faithful₁ id) id (fun _ => 0, 0) 0 5 ?_ rfl
  intro m hm s h evs hr
  have : m = 0 ∨ m = 1 ∨ m = 2 ∨ m = 3 ∨ m = 4 := by omega
  rcases this with rfl | rfl | rfl | rfl | rfl <;> cases hr <;>
    simp [AlwaysMoves, H₁, R₁, Hist.empty, Autotuner.fresh, Autotuner.finish]

/-- C61 is false: the second tuner proposes the voltages that are already set; the new evaluation of the first tuner
is not recorded. -/
theorem latest_recorded_refuted :
    ¬ ∀ (R : Reader ((Nat → Nat) × Nat) Nat Nat Nat)
      (H : Autotuner.Hierarchy ((Nat → Nat) × Nat) Nat Nat Unit Unit) (_ : Faithful R H id)
      (w : (Nat → Nat) × Nat) (x : Nat) (n : Nat) (s : Autotuner.State ((Nat → Nat) × Nat) Nat Nat)
      (h : Hist Nat Nat Nat Nat) (evs : List (Autotuner.Event ((Nat → Nat) × Nat) Nat Unit)),
      recorded R H id (Autotuner.fresh w x) n = .ok (s, h, evs) → LatestRecorded R s h evs := by
  intro hall
  have := hall R₁ (H₁ fun _ => 0) (faithful₁ _) (fun _ => 0, 0) 0 5 _ _ _ rfl
  obtain ⟨r, h1, -, h3⟩ := this 0 (by decide)
  have h4 := h3 1 2 (by decide)
  have h5 : r.cells.lookup 1 = some 1 := by
    cases h1
    rfl
  rw [h5] at h4
  cases h4

end Qtune.History
