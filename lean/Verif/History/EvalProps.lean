import Verif.History.EvalModel
import Verif.History.Props

/-!
# The raw data in the history belongs to the rows
-/

namespace Qtune.History

variable {γ κ ρ π ε δ : Type}

/-- The autotuner with the raw data in the place of the parameters. -/
def EView.raw (a : EView γ κ ρ ε δ) : View γ ε (Option δ) := { a.toView with tuners := a.evals }

/-- All appended autotuners have the same evaluators, and each tuner has some. -/
def SameEvaluators (l : List (EView γ κ ρ ε δ × π)) : Prop :=
  ∃ names : List (List ε), names ≠ [] ∧ (∀ n ∈ names, n ≠ []) ∧
    ∀ a ∈ l, a.1.evals.map (fun t => t.map Prod.fst) = names

/-- The rows of a history and of the history of the raw data. -/
structure Aligned (names : List (List ε)) (h : EHist γ κ ρ π ε δ) (he : Hist γ ε (Option δ) π) : Prop where
  rows : h.hist.rows.map (fun r => (r.voltages, r.tunerIndex)) = he.rows.map fun r => (r.voltages, r.tunerIndex)
  paths : h.hist.paths = he.paths
  data : h.data = he.rows.map (·.cells)
  names : ∀ l ∈ names, ∀ n ∈ l, n ∈ h.names

theorem columns_names (t : List (List (ε × Option δ))) :
    ∀ n ∈ (columns t).map Prod.fst, ∃ l ∈ t.map (fun t => t.map Prod.fst), n ∈ l := by
  intro n hn
  simp only [columns, List.mem_map, List.mem_flatten, List.mem_reverse] at hn
  obtain ⟨p, ⟨l, hl, hp⟩, rfl⟩ := hn
  exact ⟨l.map Prod.fst, List.mem_map.2 ⟨l, hl, rfl⟩, List.mem_map.2 ⟨p, hp, rfl⟩⟩

theorem slice_sub {β : Type} {l : List β} {i j : Nat} {x : β} (h : x ∈ slice l i j) : x ∈ l :=
  List.mem_of_mem_take (List.mem_of_mem_drop h)

theorem columns_ne_nil {t : List (List (ε × Option δ))} (h : t ≠ []) (h' : ∀ l ∈ t, l ≠ []) : columns t ≠ [] := by
  cases t with
  | nil => exact absurd rfl h
  | cons l t =>
    intro h0
    apply h' l (by simp)
    simp only [columns, List.flatten_eq_nil_iff, List.mem_reverse] at h0
    exact h0 l (by simp)

variable [DecidableEq γ] [DecidableEq ε]

theorem append_aligned {names : List (List ε)} (hne : names ≠ []) (hnil : ∀ n ∈ names, n ≠ [])
    {h : EHist γ κ ρ π ε δ} {he : Hist γ ε (Option δ) π} (ha : Aligned names h he)
    {a : EView γ κ ρ ε δ} (hev : a.evals.map (fun t => t.map Prod.fst) = names) (path : π)
    {rs : List (Row γ κ ρ)} {r : Row γ κ ρ} {k : Nat} (hr : h.hist.rows = rs ++ [r]) (hk : r.tunerIndex = some k)
    (hmove : r.voltages ≠ a.voltages → 0 < a.evaluated) :
    ∃ h' he', appendE h a path = (h', .ok ()) ∧ append h.hist a.toView path = .ok h'.hist ∧
      append he a.raw path = .ok he' ∧ Aligned names h' he' := by
  have hE : he.rows.map (fun r => (r.voltages, r.tunerIndex)) =
      rs.map (fun r => (r.voltages, r.tunerIndex)) ++ [(r.voltages, some k)] := by
    rw [← ha.rows, hr]; simp [hk]
  obtain ⟨rse, re, hre, hv, hke, hrs⟩ : ∃ rse re, he.rows = rse ++ [re] ∧ re.voltages = r.voltages ∧
      re.tunerIndex = some k ∧ rs.map (fun r => (r.voltages, r.tunerIndex)) =
        rse.map fun r => (r.voltages, r.tunerIndex) := by
    rcases List.eq_nil_or_concat he.rows with h0 | ⟨rse, re, h0⟩
    · rw [h0] at hE; simp at hE
    · rw [List.concat_eq_append] at h0
      rw [h0, List.map_append] at hE
      obtain ⟨h1, h2⟩ := List.append_inj' hE rfl
      simp only [List.map_cons, List.map_nil, List.cons.injEq, Prod.mk.injEq, and_true] at h2
      exact ⟨rse, re, h0, h2.1, h2.2, h1.symm⟩
  have hlast : h.hist.rows.getLast? = some r := by rw [hr]; simp
  have hlaste : he.rows.getLast? = some re := by rw [hre]; simp
  have hem : h.hist.rows.isEmpty = false := by rw [hr]; simp
  have heme : he.rows.isEmpty = false := by rw [hre]; simp
  have hdata : h.data.getLast? = some re.cells := by rw [ha.data, hre]; simp
  have hdl : h.data.dropLast = rse.map (·.cells) := by rw [ha.data, hre]; simp
  have hrev : a.raw.evaluated = a.evaluated := rfl
  by_cases hvv : a.voltages = r.voltages
  · have hvv' : a.raw.voltages = re.voltages := hvv.trans hv.symm
    by_cases h0 : a.evaluated = 0
    · refine ⟨{ h with hist := ⟨h.hist.rows.dropLast ++ [{ r with voltages := a.voltages }],
          h.hist.paths.dropLast ++ [path]⟩ },
        ⟨he.rows.dropLast ++ [{ re with voltages := a.voltages }], he.paths.dropLast ++ [path]⟩, ?_, ?_, ?_, ?_⟩
      · simp [appendE, hem, hlast, hvv, stay, hk, h0, slice, columns, EHist.setRow]
      · simp [append, hem, hlast, hvv, stay, hk, h0]
      · have : a.raw.voltages = a.voltages := rfl
        simp [append, heme, hlaste, hvv', stay, hke, hrev, h0, this, hv, hvv]
      · refine ⟨?_, by simp [ha.paths], ?_, ha.names⟩
        · simp [hr, hre, hrs, hk, hke]
        · simp [ha.data, hre]
    · have hstay : stay r a.toView = .ok (r.update a.toView (slice a.tuners k a.evaluated)) := by
        simp [stay, hk, h0]
      have hstaye : stay re a.raw = .ok (re.update a.raw (slice a.evals k a.evaluated)) := by
        simp only [stay, hke, hrev, h0, if_false]
        rfl
      have hset : EHist.setRow { h with hist := ⟨h.hist.rows.dropLast ++
            [r.update a.toView (slice a.tuners k a.evaluated)], h.hist.paths.dropLast ++ [path]⟩ }
            (columns (slice a.evals k a.evaluated)) =
          (⟨⟨h.hist.rows.dropLast ++ [r.update a.toView (slice a.tuners k a.evaluated)],
            h.hist.paths.dropLast ++ [path]⟩, h.names,
            h.data.dropLast ++ [columns (slice a.evals k a.evaluated) ++ re.cells]⟩, .ok ()) := by
        unfold EHist.setRow
        by_cases hcol : columns (slice a.evals k a.evaluated) = []
        · rw [if_pos hcol, hcol]
          have : h.data = h.data.dropLast ++ [re.cells] := by
            rw [hdl, ha.data, hre]; simp
          simp [← this]
        · rw [if_neg hcol]
          simp only [hdata]
          rw [if_pos]
          intro n hn
          obtain ⟨l, hl, hnl⟩ := columns_names _ n hn
          refine ha.names l ?_ n hnl
          rw [← hev]
          obtain ⟨t, ht, rfl⟩ := List.mem_map.1 hl
          exact List.mem_map.2 ⟨t, slice_sub ht, rfl⟩
      refine ⟨⟨⟨h.hist.rows.dropLast ++ [r.update a.toView (slice a.tuners k a.evaluated)],
          h.hist.paths.dropLast ++ [path]⟩, h.names,
          h.data.dropLast ++ [columns (slice a.evals k a.evaluated) ++ re.cells]⟩,
        ⟨he.rows.dropLast ++ [re.update a.raw (slice a.evals k a.evaluated)],
        he.paths.dropLast ++ [path]⟩, ?_, ?_, ?_, ?_⟩
      · simp only [appendE, hem, hlast, hvv, hk, Bool.false_eq_true, if_false, if_true, hstay]
        exact hset
      · simp [append, hem, hlast, hvv, hstay]
      · simp only [append, heme, hlaste, hvv', if_true, hstaye, Bool.false_eq_true, if_false]
      · refine ⟨?_, by simp [ha.paths], ?_, ha.names⟩
        · simp [hr, hre, hrs, Row.update, EView.raw]
        · simp [hdl, hre, Row.update]
  · have hvv' : ¬ a.raw.voltages = re.voltages := fun h => hvv (h.trans hv)
    have h0 : 0 < a.evaluated := hmove fun h => hvv h.symm
    have h0' : a.evaluated ≠ 0 := h0.ne'
    have hcol : columns (slice a.evals 0 a.evaluated) ≠ [] := by
      apply columns_ne_nil
      · have : a.evals ≠ [] := fun h => hne (by rw [← hev, h]; rfl)
        intro h
        apply this
        have := congrArg List.length h
        simp [slice] at this
        rcases this with h | h
        · exact absurd h h0'
        · exact h
      · intro l hl hnill
        apply hnil (l.map Prod.fst)
        · rw [← hev]; exact List.mem_map.2 ⟨l, slice_sub hl, rfl⟩
        · rw [hnill]; rfl
    refine ⟨⟨⟨h.hist.rows ++ [newRow a.toView], h.hist.paths ++ [path]⟩,
        h.names.union ((columns (slice a.evals 0 a.evaluated)).map Prod.fst),
        h.data ++ [columns (slice a.evals 0 a.evaluated)]⟩,
      ⟨he.rows ++ [newRow a.raw], he.paths ++ [path]⟩, ?_, ?_, ?_, ?_⟩
    · simp [appendE, hem, hlast, hvv, EHist.addRow, hcol]
    · simp [append, hem, hlast, hvv]
    · simp [append, heme, hlaste, hvv']
    · refine ⟨?_, by simp [ha.paths], ?_, ?_⟩
      · simp [hr, hre, hrs, newRow, hrev, h0', hk, hke, hv]
        exact ⟨rfl, rfl⟩
      · simp only [ha.data, newRow, hrev, h0', if_false, List.map_append, List.map_cons, List.map_nil]
        rfl
      · intro l hl n hn
        exact List.mem_union_iff.2 (.inl (ha.names l hl n hn))

theorem append_aligned_first {names : List (List ε)} (hne : names ≠ []) (hnil : ∀ n ∈ names, n ≠ [])
    {a : EView γ κ ρ ε δ} (hev : a.evals.map (fun t => t.map Prod.fst) = names) (path : π) :
    ∃ h' he', appendE (EHist.empty : EHist γ κ ρ π ε δ) a path = (h', .ok ()) ∧
      append Hist.empty a.toView path = .ok h'.hist ∧
      append Hist.empty a.raw path = .ok he' ∧ Aligned names h' he' := by
  have hcol : columns a.evals ≠ [] := by
    apply columns_ne_nil
    · exact fun h => hne (by rw [← hev, h]; rfl)
    · intro l hl hnill
      apply hnil (l.map Prod.fst)
      · rw [← hev]; exact List.mem_map.2 ⟨l, hl, rfl⟩
      · rw [hnill]; rfl
  have hal : Aligned (κ := κ) (ρ := ρ) names
      (⟨⟨[firstRow a.toView], [path]⟩, ([] : List ε).union ((columns a.evals).map Prod.fst), [columns a.evals]⟩ :
        EHist γ κ ρ π ε δ) ⟨[firstRow a.raw], [path]⟩ := by
    refine ⟨rfl, rfl, rfl, fun l hl n hn => ?_⟩
    rw [← hev] at hl
    obtain ⟨t, ht, rfl⟩ := List.mem_map.1 hl
    obtain ⟨p, hp, rfl⟩ := List.mem_map.1 hn
    refine List.mem_union_iff.2 (.inr (List.mem_map.2 ⟨p, ?_, rfl⟩))
    simp only [columns, List.mem_flatten, List.mem_reverse]
    exact ⟨t, ht, hp⟩
  obtain ⟨h', he', h1, h2, h3, h4⟩ := append_aligned hne hnil hal hev path (rs := []) (r := firstRow a.toView) rfl rfl
    (fun h => absurd rfl h)
  refine ⟨h', he', ?_, ?_, ?_, h4⟩
  · rw [← h1]
    simp [appendE, EHist.empty, Hist.empty, EHist.addRow, hcol]
  · rw [← h2]
    simp [append, Hist.empty]
  · rw [← h3]
    simp [append, Hist.empty]

theorem appendAll_aligned {names : List (List ε)} (hne : names ≠ []) (hnil : ∀ n ∈ names, n ≠ []) :
    ∀ (l : List (EView γ κ ρ ε δ × π)) (h : EHist γ κ ρ π ε δ) (he : Hist γ ε (Option δ) π), Aligned names h he →
    (∀ a ∈ l, a.1.evals.map (fun t => t.map Prod.fst) = names) →
    ∀ (rs : List (Row γ κ ρ)) (r : Row γ κ ρ) (k : Nat), h.hist.rows = rs ++ [r] → r.tunerIndex = some k →
    (∀ a, l.head? = some a → r.voltages ≠ a.1.voltages → 0 < a.1.evaluated) →
    MovesEvaluated (l.map fun a => (a.1.toView, a.2)) →
    ∃ h' he', appendAllE h l = .ok h' ∧ appendAll h.hist (l.map fun a => (a.1.toView, a.2)) = .ok h'.hist ∧
      appendAll he (l.map fun a => (a.1.raw, a.2)) = .ok he' ∧ Aligned names h' he'
  | [], h, he, ha, _, _, _, _, _, _, _, _ => ⟨h, he, rfl, rfl, rfl, ha⟩
  | (a, p) :: l, h, he, ha, hev, rs, r, k, hr, hk, hm, hmoves => by
    obtain ⟨h1, he1, e1, e2, e3, e4⟩ := append_aligned hne hnil ha (hev (a, p) (by simp)) p hr hk
      (hm (a, p) rfl)
    obtain ⟨h2, rs', r', k', f1, f2, f3, f4, -⟩ := append_ok p hr hk (hm (a, p) rfl)
    rw [e2] at f1
    cases Except.ok.inj f1
    have htail : MovesEvaluated (l.map fun a => (a.1.toView, a.2)) := by
      unfold MovesEvaluated at hmoves ⊢
      simp only [List.map_cons] at hmoves
      exact hmoves.of_cons
    obtain ⟨h3, he3, g1, g2, g3, g4⟩ := appendAll_aligned hne hnil l h1 he1 e4
      (fun b hb => hev b (List.mem_cons_of_mem _ hb)) rs' r' k' f2 f4 (fun b hb hne' => by
        rw [f3] at hne'
        cases l with
        | nil => cases hb
        | cons c l =>
          cases Option.some.inj hb
          unfold MovesEvaluated at hmoves
          simp only [List.map_cons, List.isChain_cons_cons] at hmoves
          exact hmoves.1 hne') htail
    refine ⟨h3, he3, ?_, ?_, ?_, g4⟩
    · simp only [appendAllE, e1]; exact g1
    · simp only [List.map_cons, appendAll, e2]; exact g2
    · simp only [List.map_cons, appendAll, e3]; exact g3

/-- **C146**, part.  If the appended autotuners have the same evaluators, each tuner has evaluators, and whenever the voltages changed a
tuner had been evaluated, appending does not raise; there are as many rows of raw data as rows of the history, and row `k` of
the raw data contains what row `k` of the history contains if the raw data is taken in the place of the parameters.  Missing:
evaluators that are called later for the first time. -/
theorem raw_data_aligned_partial {l : List (EView γ κ ρ ε δ × π)} (hl : SameEvaluators l)
    (hm : MovesEvaluated (l.map fun a => (a.1.toView, a.2))) :
    ∃ h he, appendAllE EHist.empty l = .ok h ∧
      appendAll Hist.empty (l.map fun a => (a.1.toView, a.2)) = .ok h.hist ∧
      appendAll Hist.empty (l.map fun a => (a.1.raw, a.2)) = .ok he ∧
      h.data = he.rows.map (·.cells) ∧ h.hist.rows.map (·.voltages) = he.rows.map (·.voltages) ∧
      h.data.length = h.hist.rows.length := by
  obtain ⟨names, hne, hnil, hev⟩ := hl
  cases l with
  | nil => exact ⟨_, _, rfl, rfl, rfl, rfl, rfl, rfl⟩
  | cons a l =>
    obtain ⟨a, p⟩ := a
    obtain ⟨h1, he1, e1, e2, e3, e4⟩ := append_aligned_first (κ := κ) (ρ := ρ) hne hnil (hev (a, p) (by simp)) p
    obtain ⟨h0, f1, f2, r, f3, f4⟩ := append_first (κ := κ) (ρ := ρ) (a := a.toView) (p := p)
    rw [e2] at f1
    cases Except.ok.inj f1
    have hv : r.voltages = a.voltages := by
      have := f2.1
      rw [f3] at this
      simpa using this
    have htail : MovesEvaluated (l.map fun a => (a.1.toView, a.2)) := by
      unfold MovesEvaluated at hm ⊢
      simp only [List.map_cons] at hm
      exact hm.of_cons
    obtain ⟨h3, he3, g1, g2, g3, g4⟩ := appendAll_aligned hne hnil l h1 he1 e4
      (fun b hb => hev b (List.mem_cons_of_mem _ hb)) [] r _ f3 f4 (fun b hb hne' => by
        rw [hv] at hne'
        cases l with
        | nil => cases hb
        | cons c l =>
          cases Option.some.inj hb
          unfold MovesEvaluated at hm
          simp only [List.map_cons, List.isChain_cons_cons] at hm
          exact hm.1 hne') htail
    refine ⟨h3, he3, ?_, ?_, ?_, g4.data, ?_, ?_⟩
    · simp only [appendAllE, e1]; exact g1
    · simp only [List.map_cons, appendAll, e2]; exact g2
    · simp only [List.map_cons, appendAll, e3]; exact g3
    · have := congrArg (List.map Prod.fst) g4.rows
      simpa [Function.comp_def] using this
    · have := congrArg List.length g4.rows
      rw [g4.data]
      simpa using this.symm

/-- **C146** is false: a tuner after the first one has an evaluator whose data is not in the table yet, as the expensive
evaluators of a `SensingDotTuner` that have not been called before.  Whenever it is evaluated at the voltages of the last row,
appending raises `KeyError`, and the raw data is not recorded, although the row of the history and its path have been
changed. -/
theorem raw_data_aligned_refuted (h : EHist γ κ ρ π ε δ) (a : EView γ κ ρ ε δ) (path : π)
    {rs : List (Row γ κ ρ)} {r : Row γ κ ρ} {k : Nat} (hr : h.hist.rows = rs ++ [r]) (hk : r.tunerIndex = some k)
    (hv : a.voltages = r.voltages) (h0 : 0 < a.evaluated) (hd : h.data ≠ [])
    {n : ε} {d : Option δ} (hn : (n, d) ∈ columns (slice a.evals k a.evaluated)) (hnew : n ∉ h.names) :
    (appendE h a path).2 = .error .keyError ∧ (appendE h a path).1.data = h.data ∧
      (appendE h a path).1.hist.rows = rs ++ [r.update a.toView (slice a.tuners k a.evaluated)] ∧
      (appendE h a path).1.hist.paths = h.hist.paths.dropLast ++ [path] := by
  have hem : h.hist.rows.isEmpty = false := by rw [hr]; simp
  have hlast : h.hist.rows.getLast? = some r := by rw [hr]; simp
  have hstay : stay r a.toView = .ok (r.update a.toView (slice a.tuners k a.evaluated)) := by
    simp [stay, hk, h0.ne']
  have hcol : columns (slice a.evals k a.evaluated) ≠ [] := List.ne_nil_of_mem hn
  obtain ⟨x, hx⟩ : ∃ x, h.data.getLast? = some x := by
    cases hdd : h.data.getLast? with
    | none => exact absurd (List.getLast?_eq_none_iff.1 hdd) hd
    | some x => exact ⟨x, rfl⟩
  have hnot : ¬ ∀ m ∈ (columns (slice a.evals k a.evaluated)).map Prod.fst, m ∈ h.names := fun hall =>
    hnew (hall n (List.mem_map.2 ⟨_, hn, rfl⟩))
  have key : appendE h a path = ({ h with hist := ⟨h.hist.rows.dropLast ++
      [r.update a.toView (slice a.tuners k a.evaluated)], h.hist.paths.dropLast ++ [path]⟩ }, .error .keyError) := by
    simp only [appendE, hem, hlast, hv, hk, Bool.false_eq_true, if_false, if_true, hstay, EHist.setRow, hcol, hx, hnot]
  rw [key]
  refine ⟨rfl, rfl, ?_, rfl⟩
  simp [hr]

/-- A new row for which nothing was evaluated: no row is added to the raw data, so that the following rows are counted
differently. -/
theorem raw_data_shifted_refuted (h : EHist γ κ ρ π ε δ) (a : EView γ κ ρ ε δ) (path : π)
    {rs : List (Row γ κ ρ)} {r : Row γ κ ρ} (hr : h.hist.rows = rs ++ [r])
    (hv : a.voltages ≠ r.voltages) (h0 : a.evaluated = 0) :
    (appendE h a path).2 = .ok () ∧ (appendE h a path).1.data = h.data ∧
      (appendE h a path).1.hist.rows.length = h.hist.rows.length + 1 := by
  have hem : h.hist.rows.isEmpty = false := by rw [hr]; simp
  have hlast : h.hist.rows.getLast? = some r := by rw [hr]; simp
  have key : appendE h a path =
      ({ h with hist := ⟨h.hist.rows ++ [newRow a.toView], h.hist.paths ++ [path]⟩ }, .ok ()) := by
    simp [appendE, hem, hlast, hv, EHist.addRow, h0, slice, columns]
  rw [key]
  exact ⟨rfl, rfl, by simp⟩

/-! ### Two tuners with one evaluator each -/

/-- The voltages are numbers, the raw data of both evaluators are given. -/
def sampleE (v : Nat) (x y : Option Nat) (index : Nat) (status : Bool) : EView Nat String Nat String Nat :=
  ⟨⟨v, [], index, false, status⟩, [[("scan", x)], [("fit", y)]]⟩

/-- The hypotheses of `raw_data_aligned_partial` are satisfiable: three autotuners at the voltages 0, 0 and 1. -/
example : SameEvaluators [(sampleE 0 (some 5) none 1 false, 0), (sampleE 0 (some 5) (some 6) 1 true, 1),
      (sampleE 1 (some 7) (some 6) 0 true, 2)] ∧
    MovesEvaluated ([(sampleE 0 (some 5) none 1 false, 0), (sampleE 0 (some 5) (some 6) 1 true, 1),
      (sampleE 1 (some 7) (some 6) 0 true, 2)].map fun a => (a.1.toView, a.2)) ∧
    ∃ h, appendAllE EHist.empty [(sampleE 0 (some 5) none 1 false, 0), (sampleE 0 (some 5) (some 6) 1 true, 1),
      (sampleE 1 (some 7) (some 6) 0 true, 2)] = .ok h ∧
      h.data.map (fun r => (r.lookup "scan", r.lookup "fit")) =
        [(some (some 5), some (some 6)), (some (some 7), none)] := by
  refine ⟨⟨[["scan"], ["fit"]], by simp, by simp, by simp [sampleE]⟩, ?_, ?_⟩
  · simp [MovesEvaluated, sampleE, View.evaluated]
  · exact ⟨_, rfl, rfl⟩

/-- The hypotheses of `raw_data_aligned_refuted` are satisfiable: the expensive evaluator of the second tuner is called for the
first time. -/
example : ∃ (h : EHist Nat String Nat Nat String Nat) (a : EView Nat String Nat String Nat) (r : Row Nat String Nat),
    h.hist.rows = [] ++ [r] ∧ r.tunerIndex = some 1 ∧ a.voltages = r.voltages ∧ 0 < a.evaluated ∧ h.data ≠ [] ∧
    ("expensive", some 9) ∈ columns (slice a.evals 1 a.evaluated) ∧ "expensive" ∉ h.names :=
  ⟨⟨⟨[⟨0, [], some 1⟩], [0]⟩, ["scan", "cheap"], [[("scan", some 5), ("cheap", none)]]⟩,
    ⟨⟨0, [], 1, false, true⟩, [[("scan", some 5)], [("cheap", some 8), ("expensive", some 9)]]⟩, ⟨0, [], some 1⟩,
    rfl, rfl, rfl, by decide, by decide, by decide, by decide⟩

end Qtune.History
