import Mathlib.Tactic.Tauto
import Verif.History.FigureModel


/-! # Figures of raw data (C155) -/

namespace Qtune.History.Figure

/-- The figure shows, in their own axes, all evaluators among `names` that have data, each with as many axes as it has
measurements. -/
structure Shows (data : String → Option Nat) (names : List String) (f : Fig) : Prop where
  all : f.drawings.map (fun d => (d.evaluator, d.count)) = names.filterMap fun e => (data e).map fun k => (e, k)
  inside : ∀ d ∈ f.drawings, d.first + d.count ≤ f.axes
  apart : f.drawings.Pairwise fun a b => a.first + a.count ≤ b.first

theorem slices_map : ∀ (l : List (String × Nat)) (n : Nat), (slices n l).map (fun d => (d.evaluator, d.count)) = l
  | [], _ => rfl
  | (e, k) :: l, n => by simp [slices, slices_map l (n + k)]

theorem slices_mem : ∀ (l : List (String × Nat)) (n : Nat), ∀ d ∈ slices n l,
    n ≤ d.first ∧ d.first + d.count ≤ n + (l.map Prod.snd).sum
  | [], _, d, h => by simp [slices] at h
  | (e, k) :: l, n, d, h => by
    simp only [slices, List.mem_cons] at h
    rcases h with rfl | h
    · simp
    · obtain ⟨h1, h2⟩ := slices_mem l (n + k) d h
      simp
      omega

theorem slices_apart : ∀ (l : List (String × Nat)) (n : Nat),
    (slices n l).Pairwise fun a b => a.first + a.count ≤ b.first
  | [], _ => by simp [slices]
  | (e, k) :: l, n => by
    simp only [slices, List.pairwise_cons]
    exact ⟨fun d hd => (slices_mem l (n + k) d hd).1, slices_apart l (n + k)⟩

theorem le_sum_of_mem {k : Nat} : ∀ {l : List Nat}, k ∈ l → k ≤ l.sum
  | a :: l, h => by
    rcases List.mem_cons.1 h with rfl | h
    · simp
    · have := le_sum_of_mem h
      simp
      omega

theorem relevant_known {known : String → Bool} {data : String → Option Nat} : ∀ {names : List String},
    (∀ e ∈ names, known e = true) → relevant known data names = .ok (names.filterMap fun e => (data e).map fun k => (e, k))
  | [], _ => rfl
  | e :: l, h => by
    simp only [relevant, h e List.mem_cons_self, if_true, relevant_known fun x hx => h x (List.mem_cons_of_mem _ hx)]
    rcases hd : data e with _ | k <;> simp [hd, bind, Except.bind]

/-- The loop that removes names, if no two neighbours are unknown. -/
theorem prune_eq {known : String → Bool} : ∀ (k : Nat) (done rest : List String), rest.length ≤ k →
    (∀ e ∈ done, known e = true) → rest.IsChain (fun a b => known a = true ∨ known b = true) →
    prune known done rest = done ++ rest.filter known := by
  intro k
  induction k with
  | zero =>
    intro done rest hk hd _
    obtain rfl : rest = [] := by simpa using hk
    simp [prune]
  | succ k ih =>
    intro done rest hk hd hc
    cases rest with
    | nil => simp [prune]
    | cons a t =>
      rw [prune]
      by_cases ha : known a = true
      · rw [if_pos ha, ih _ t (by simpa using hk) (by
          intro e he
          simp at he
          rcases he with he | rfl
          · exact hd e he
          · exact ha) (by
            cases t with
            | nil => exact .nil
            | cons b t => exact (List.isChain_cons_cons.1 hc).2)]
        simp [ha]
      · rw [if_neg ha]
        have hna : a ∉ done := fun h => ha (hd a h)
        have herase : (done ++ a :: t).erase a = done ++ t := by
          rw [List.erase_append_right _ hna]; simp
        rw [herase]
        cases t with
        | nil =>
          rw [List.append_nil, List.take_of_length_le (by omega), List.drop_of_length_le (by omega), prune]
          simp [ha]
        | cons b t =>
          have hb : known b = true := ((List.isChain_cons_cons.1 hc).1).resolve_left ha
          have e1 : (done ++ b :: t).take (done.length + 1) = done ++ [b] := by
            rw [List.take_append, List.take_of_length_le (by omega)]; simp
          have e2 : (done ++ b :: t).drop (done.length + 1) = t := by
            rw [List.drop_append]; simp
          rw [e1, e2, ih _ t (by simp at hk; omega) (by
            intro e he
            simp at he
            rcases he with he | rfl
            · exact hd e he
            · exact hb) (by
              have := (List.isChain_cons_cons.1 hc).2
              cases t with
              | nil => exact .nil
              | cons c t => exact (List.isChain_cons_cons.1 this).2)]
          simp [ha, hb]

theorem figures_ok {known : String → Bool} {rows : Nat} {data : Nat → String → Option Nat} {names : List String}
    (hk : ∀ e ∈ names, known e = true) (hp : ∀ e ∈ names, e ∈ plottable) : ∀ {l : List Nat},
    (∀ i ∈ l, i < rows ∧ ∃ e ∈ names, ∃ k, data i e = some k ∧ 0 < k) →
    ∃ fs, figures known rows data names l = .ok fs ∧ List.Forall₂ (fun i f => Shows (data i) names f) l fs
  | [], _ => ⟨[], rfl, .nil⟩
  | i :: l, h => by
    obtain ⟨fs, h1, h2⟩ := figures_ok hk hp (l := l) fun j hj => h j (List.mem_cons_of_mem _ hj)
    obtain ⟨hi, e, he, k, hek, hpos⟩ := h i List.mem_cons_self
    let r := names.filterMap fun e => (data i e).map fun k => (e, k)
    have hr : relevant known (data i) names = .ok r := relevant_known hk
    have hmem : (e, k) ∈ r := List.mem_filterMap.2 ⟨e, he, by simp [hek]⟩
    have hsum : (r.map Prod.snd).sum ≠ 0 := by
      have : k ≤ (r.map Prod.snd).sum := le_sum_of_mem (List.mem_map.2 ⟨(e, k), hmem, rfl⟩)
      omega
    have hall : (r.all fun x => decide (x.1 ∈ plottable)) = true := by
      rw [List.all_eq_true]
      rintro ⟨e', k'⟩ hx
      obtain ⟨e'', he'', hx⟩ := List.mem_filterMap.1 hx
      rw [Option.map_eq_some_iff] at hx
      obtain ⟨a, -, ha⟩ := hx
      simp only [Prod.mk.injEq] at ha
      simpa [← ha.1] using hp e'' he''
    have hrow : row known (data i) names = .ok ⟨2 * ((r.map Prod.snd).sum / 2 + (r.map Prod.snd).sum % 2), slices 0 r⟩ := by
      simp only [row, hr, bind, Except.bind, hsum, if_false, hall, if_true]
    refine ⟨⟨2 * ((r.map Prod.snd).sum / 2 + (r.map Prod.snd).sum % 2), slices 0 r⟩ :: fs, ?_,
      .cons ⟨slices_map r 0, fun d hd => ?_, slices_apart r 0⟩ h2⟩
    · simp [figures, hi, hrow, h1, bind, Except.bind]
    · have := (slices_mem r 0 d hd).2
      dsimp only
      omega

/-- **C155** (partial).  `plot_evaluator_data` returns one figure for each row, which shows all named evaluators that have
data in this row, each in its own axes.  Names of evaluators without data are ignored.  This holds
if no two of them follow each other in the list, all others can be drawn, and every row has data. -/
theorem evaluator_figures_partial (known : String → Bool) (rows : Nat) (data : Nat → String → Option Nat) (start : Nat)
    (stop : Option Nat) (names : List String) (hc : names.IsChain (fun a b => known a = true ∨ known b = true))
    (hp : ∀ e ∈ names, known e = true → e ∈ plottable)
    (hrow : ∀ i, start ≤ i → i < stop.getD (start + 1) →
      i < rows ∧ ∃ e ∈ names, known e = true ∧ ∃ k, data i e = some k ∧ 0 < k) :
    ∃ fs, (plotEvaluatorData known rows data start stop names).2 = .ok fs ∧
      List.Forall₂ (fun i f => Shows (data i) (names.filter known) f)
        (List.range' start (stop.getD (start + 1) - start)) fs := by
  have hpr : prune known [] names = names.filter known := by
    rw [prune_eq names.length [] names (Nat.le_refl _) (by simp) hc]; simp
  unfold plotEvaluatorData
  rw [hpr]
  refine figures_ok (fun e he => (List.mem_filter.1 he).2)
    (fun e he => hp e (List.mem_filter.1 he).1 (List.mem_filter.1 he).2) fun i hi => ?_
  rw [List.mem_range'_1] at hi
  obtain ⟨h1, e, he, hk, hd⟩ := hrow i hi.1 (by omega)
  exact ⟨h1, e, List.mem_filter.2 ⟨he, hk⟩, hd⟩

/-- An entry that the loop has passed disappears only if it is found again. -/
theorem prune_keeps {known : String → Bool} {b : String} : ∀ (k : Nat) (done rest : List String), rest.length ≤ k →
    b ∈ done → b ∉ rest → b ∈ prune known done rest := by
  intro k
  induction k with
  | zero =>
    intro done rest hk hd _
    obtain rfl : rest = [] := by simpa using hk
    simpa [prune] using hd
  | succ k ih =>
    intro done rest hk hd hr
    cases rest with
    | nil => simpa [prune] using hd
    | cons a t =>
      have hba : b ≠ a := fun h => hr (h ▸ List.mem_cons_self)
      have hbt : b ∉ t := fun h => hr (List.mem_cons_of_mem _ h)
      rw [prune]
      split
      · exact ih _ t (by simpa using hk) (by simp [hd]) hbt
      · have hmem : a ∈ done ++ a :: t := by simp
        have hsplit : (done ++ a :: t).erase a = (done ++ [a]).erase a ++ t := by
          rw [show done ++ a :: t = (done ++ [a]) ++ t by simp, List.erase_append_left _ (by simp)]
        have hlen : ((done ++ [a]).erase a).length = done.length := by
          rw [List.length_erase_of_mem (by simp)]; simp
        rw [hsplit]
        have e1 : ((done ++ [a]).erase a ++ t).take (done.length + 1) = (done ++ [a]).erase a ++ t.take 1 := by
          rw [List.take_append, hlen, List.take_of_length_le (by omega)]
          simp
        have e2 : ((done ++ [a]).erase a ++ t).drop (done.length + 1) = t.drop 1 := by
          rw [List.drop_append, hlen, List.drop_of_length_le (by omega)]
          simp
        rw [e1, e2]
        refine ih _ _ (by simp at hk ⊢; omega) ?_ fun h => hbt (List.mem_of_mem_drop h)
        rw [List.mem_append]
        left
        rw [List.mem_erase_of_ne hba]
        simp [hd]

theorem relevant_unknown {known : String → Bool} {data : String → Option Nat} {b : String} (hb : known b = false) :
    ∀ {names : List String}, b ∈ names → relevant known data names = .error .keyError
  | e :: l, h => by
    simp only [relevant]
    split
    · rename_i hk
      have hbl : b ∈ l := by
        rcases List.mem_cons.1 h with rfl | h
        · rw [hb] at hk; cases hk
        · exact h
      rw [relevant_unknown hb hbl]
      rfl
    · rfl

/-- **C155**, refuted for two neighbours without data: whichever names come before and after, the second one is not
removed, and `plot_evaluator_data` raises a KeyError instead of ignoring it. -/
theorem unknown_neighbours_refuted (known : String → Bool) (rows : Nat) (data : Nat → String → Option Nat) (start : Nat)
    (hs : start < rows) (p s : List String) (a b : String) (hp : ∀ e ∈ p, known e = true) (ha : known a = false)
    (hb : known b = false) (hbs : b ∉ s) :
    (plotEvaluatorData known rows data start none (p ++ a :: b :: s)).2 = .error .keyError := by
  have hmem : b ∈ prune known [] (p ++ a :: b :: s) := by
    have key : ∀ (p done : List String), (∀ e ∈ p, known e = true) → (∀ e ∈ done, known e = true) →
        b ∈ prune known done (p ++ a :: b :: s) := by
      intro p
      induction p with
      | nil =>
        intro done _ hd
        rw [List.nil_append, prune, if_neg (by simp [ha])]
        have hna : a ∉ done := fun h => by have := hd a h; rw [ha] at this; cases this
        have herase : (done ++ a :: b :: s).erase a = done ++ b :: s := by
          rw [List.erase_append_right _ hna]; simp
        rw [herase]
        have e1 : (done ++ b :: s).take (done.length + 1) = done ++ [b] := by
          rw [List.take_append, List.take_of_length_le (by omega)]; simp
        have e2 : (done ++ b :: s).drop (done.length + 1) = s := by
          rw [List.drop_append]; simp
        rw [e1, e2]
        exact prune_keeps s.length _ _ (Nat.le_refl _) (by simp) hbs
      | cons e p ih =>
        intro done hp hd
        rw [List.cons_append, prune, if_pos (hp e List.mem_cons_self)]
        refine ih _ (fun x hx => hp x (List.mem_cons_of_mem _ hx)) ?_
        intro x hx
        simp at hx
        rcases hx with hx | rfl
        · exact hd x hx
        · exact hp _ List.mem_cons_self
    exact key p [] hp (by simp)
  have hr : (List.range' start ((none : Option Nat).getD (start + 1) - start)) = [start] := by simp
  unfold plotEvaluatorData
  rw [hr]
  simp [figures, hs, row, relevant_unknown hb hmem, bind, Except.bind]

/-- **C155**, refuted for a row without data: it raises instead of returning an empty figure. -/
theorem empty_row_refuted (known : String → Bool) (rows : Nat) (data : Nat → String → Option Nat) (start : Nat) (hs : start < rows)
    (names : List String) (hk : ∀ e ∈ names, known e = true) (hd : ∀ e ∈ names, data start e = none) :
    (plotEvaluatorData known rows data start none names).2 = .error .valueError := by
  have hpr : prune known [] names = names := by
    rw [prune_eq names.length [] names (Nat.le_refl _) (by simp) (by
      induction names with
      | nil => exact .nil
      | cons e l ih =>
        cases l with
        | nil => exact .singleton _
        | cons e' l =>
          exact List.isChain_cons_cons.2 ⟨.inl (hk e List.mem_cons_self), ih (fun x hx => hk x (List.mem_cons_of_mem _ hx))
            fun x hx => hd x (List.mem_cons_of_mem _ hx)⟩)]
    simp only [List.nil_append]
    exact List.filter_eq_self.2 hk
  have hr : (List.range' start ((none : Option Nat).getD (start + 1) - start)) = [start] := by simp
  unfold plotEvaluatorData
  rw [hr, hpr]
  have : (names.filterMap fun e => (data start e).map fun k => (e, k)) = [] := by
    rw [List.filterMap_eq_nil_iff]
    intro e he
    simp [hd e he]
  simp [figures, hs, row, relevant_known hk, this, bind, Except.bind]

/-- **C155**, the list of the caller is changed. -/
theorem caller_list_refuted (known : String → Bool) (rows : Nat) (data : Nat → String → Option Nat) (start : Nat)
    (stop : Option Nat) (a : String) (ha : known a = false) :
    (plotEvaluatorData known rows data start stop [a]).1 = [] := by
  simp [plotEvaluatorData, prune, ha]

/-- Names that meet the hypotheses: one of them is unknown, one has no data in this row. -/
example : ∃ fs, (plotEvaluatorData (fun e => e != "Other") 3 (fun _ e => if e = "LeadTransition" then some 2 else
      if e = "LoadTime" then some 1 else none) 1 none ["LoadTime", "Other", "SensingDot1D", "LeadTransition"]).2 = .ok fs ∧
    fs = [⟨4, [⟨"LoadTime", 0, 1⟩, ⟨"LeadTransition", 1, 2⟩]⟩] := by
  simp [plotEvaluatorData, prune, figures, row, relevant, slices, plottable, bind, Except.bind]

/-- The names of evaluators that can be drawn (`plot_function_matching` of the module `history`). -/
def drawable : List String := ["InterDotTCByLineScan", "LoadTime", "LeadTransition", "LeadTransitionRFA", "LeadTransitionRFB", "SensingDot1D",
  "SensingDot2D", "LeadTunnelTimeByLeadScan", "AveragingInterDotTCByLineScan", "AveragingLeadTunnelTimeByLeadScan"]

/-- **C155** depends on the name of the evaluator: with data in the row a figure is returned exactly if the name is one of `drawable`, otherwise
there is a KeyError. -/
theorem drawn_by_name (rows : Nat) (known : String → Bool) (data : Nat → String → Option Nat) (start : Nat) (hs : start < rows) (e : String)
    (hk : known e = true) {k : Nat} (hd : data start e = some (k + 1)) :
    (plotEvaluatorData known rows data start none [e]).2 =
      if e ∈ drawable then .ok [⟨2 * ((k + 1) / 2 + (k + 1) % 2), [⟨e, 0, k + 1⟩]⟩] else .error .keyError := by
  have hm : e ∈ plottable ↔ e ∈ drawable := by
    simp only [plottable, drawable, List.mem_cons, List.not_mem_nil, or_false]
    tauto
  by_cases h : e ∈ drawable
  · simp [plotEvaluatorData, prune, figures, row, relevant, slices, hk, hd, hm.2 h, h, hs, bind, Except.bind]
  · simp [plotEvaluatorData, prune, figures, row, relevant, slices, hk, hd, mt hm.1 h, h, hs, bind, Except.bind]

end Qtune.History.Figure
