import Verif.History.Spec
import Mathlib.Data.List.Chain

/-!
# Lemmas about the history
-/

namespace Qtune.History

variable {γ κ ρ π W X V P C : Type}

/-- The history consists of the points `l`. -/
def Points (h : Hist γ κ ρ π) (l : List (γ × π)) : Prop :=
  h.rows.map (·.voltages) = l.map Prod.fst ∧ h.paths = l.map Prod.snd

theorem stay_voltages {r r' : Row γ κ ρ} {a : View γ κ ρ} (h : stay r a = .ok r') :
    r'.voltages = a.voltages := by
  unfold stay at h
  split at h
  · simp at h
  · split at h <;> cases Except.ok.inj h <;> rfl

theorem newRow_voltages (a : View γ κ ρ) : (newRow a).voltages = a.voltages := by
  unfold newRow; split <;> rfl

theorem rows_snoc {h : Hist γ κ ρ π} {init : List (γ × π)} {vl : γ} {pl : π}
    (hp : Points h (init ++ [(vl, pl)])) :
    ∃ rs r, h.rows = rs ++ [r] ∧ r.voltages = vl ∧ rs.map (·.voltages) = init.map Prod.fst ∧
      h.paths = init.map Prod.snd ++ [pl] := by
  obtain ⟨h1, h2⟩ := hp
  rcases List.eq_nil_or_concat h.rows with h0 | ⟨rs, r, h0⟩
  · rw [h0] at h1; simp at h1
  · rw [List.concat_eq_append] at h0
    refine ⟨rs, r, h0, ?_⟩
    rw [h0] at h1
    simp only [List.map_append, List.map_cons, List.map_nil] at h1 h2
    obtain ⟨h3, h4⟩ := List.append_inj' h1 rfl
    exact ⟨by simpa using h4, h3, h2⟩

variable [DecidableEq γ]

theorem append_points {h h' : Hist γ κ ρ π} {init : List (γ × π)} {vl : γ} {pl : π}
    {a : View γ κ ρ} {p : π} (hp : Points h (init ++ [(vl, pl)])) (ha : append h a p = .ok h') :
    Points h' (if vl = a.voltages then init ++ [(a.voltages, p)] else init ++ [(vl, pl)] ++ [(a.voltages, p)]) := by
  obtain ⟨rs, r, h1, h2, h3, h4⟩ := rows_snoc hp
  have he : h.rows.isEmpty = false := by rw [h1]; simp
  unfold append at ha
  simp only [he] at ha
  simp only [Bool.false_eq_true, if_false, h1, List.getLast?_append, List.getLast?_singleton, Option.some_or] at ha
  rw [h2] at ha
  by_cases hv : vl = a.voltages
  · rw [if_pos hv]
    rw [if_pos hv.symm] at ha
    split at ha
    · simp at ha
    · rename_i r' hs
      cases Except.ok.inj ha
      constructor
      · simp [h3, stay_voltages hs]
      · simp [h4]
  · rw [if_neg hv]
    rw [if_neg (fun h => hv h.symm)] at ha
    cases Except.ok.inj ha
    constructor
    · simp [h3, h2, newRow_voltages]
    · simp [h4]

theorem appendAll_points (l : List (View γ κ ρ × π)) : ∀ {h h' : Hist γ κ ρ π} {init : List (γ × π)} {vl : γ}
    {pl : π}, Points h (init ++ [(vl, pl)]) → appendAll h l = .ok h' →
    Points h' (init ++ runs ((vl, pl) :: l.map fun a => (a.1.voltages, a.2))) := by
  induction l with
  | nil =>
    intro h h' init vl pl hp ha
    cases Except.ok.inj ha
    exact hp
  | cons a l ih =>
    obtain ⟨a, p⟩ := a
    intro h h' init vl pl hp ha
    unfold appendAll at ha
    split at ha
    · simp at ha
    · rename_i h1 hs
      have := append_points hp hs
      simp only [List.map_cons, runs]
      split
      · rename_i hv
        rw [if_pos hv] at this
        exact ih this ha
      · rename_i hv
        rw [if_neg hv] at this
        have := ih this ha
        simpa using this

theorem append_first {a : View γ κ ρ} {p : π} :
    ∃ h, append (Hist.empty : Hist γ κ ρ π) a p = .ok h ∧ Points h [(a.voltages, p)] ∧
      ∃ r, h.rows = [r] ∧ r.tunerIndex = some a.index := by
  unfold append
  simp only [Hist.empty, List.isEmpty_nil, if_true, List.getLast?_singleton, firstRow, stay]
  split
  · rename_i h; split at h <;> cases h
  · rename_i r' hs
    refine ⟨_, rfl, ?_, _, rfl, ?_⟩
    · constructor <;> simp
      split at hs <;> cases Except.ok.inj hs <;> rfl
    · split at hs <;> cases Except.ok.inj hs <;> rfl

/-- The rows have an index of the tuner. -/
theorem append_ok {h : Hist γ κ ρ π} {rs : List (Row γ κ ρ)} {r : Row γ κ ρ} {k : Nat} {a : View γ κ ρ} (p : π)
    (h1 : h.rows = rs ++ [r]) (h2 : r.tunerIndex = some k) (h3 : r.voltages ≠ a.voltages → 0 < a.evaluated) :
    ∃ h' rs' r' k', append h a p = .ok h' ∧ h'.rows = rs' ++ [r'] ∧ r'.voltages = a.voltages ∧
      r'.tunerIndex = some k' ∧
      ((r.voltages = a.voltages ∧ rs' = rs ∧ stay r a = .ok r') ∨
       (r.voltages ≠ a.voltages ∧ r' = newRow a)) := by
  have he : h.rows.isEmpty = false := by rw [h1]; simp
  unfold append
  simp only [he]
  simp only [Bool.false_eq_true, if_false, h1, List.getLast?_append, List.getLast?_singleton, Option.some_or]
  by_cases hv : a.voltages = r.voltages
  · rw [if_pos hv]
    by_cases h0 : a.evaluated = 0
    · have : stay r a = .ok { r with voltages := a.voltages } := by unfold stay; rw [h2]; simp [h0]
      rw [this]
      exact ⟨_, rs, { r with voltages := a.voltages }, k, rfl, by simp, rfl, h2, .inl ⟨hv.symm, rfl, rfl⟩⟩
    · have : stay r a = .ok (r.update a (slice a.tuners k a.evaluated)) := by unfold stay; rw [h2]; simp [h0]
      rw [this]
      exact ⟨_, rs, _, a.index, rfl, by simp, rfl, rfl, .inl ⟨hv.symm, rfl, rfl⟩⟩
  · rw [if_neg hv]
    have h0 : a.evaluated ≠ 0 := by have := h3 (fun h => hv h.symm); omega
    refine ⟨_, rs ++ [r], _, a.index, rfl, rfl, newRow_voltages a, ?_, .inr ⟨fun h => hv h.symm, rfl⟩⟩
    unfold newRow; rw [if_neg h0]

theorem appendAll_ok (l : List (View γ κ ρ × π)) : ∀ {h : Hist γ κ ρ π} {rs : List (Row γ κ ρ)}
    {r : Row γ κ ρ} {k : Nat}, h.rows = rs ++ [r] → r.tunerIndex = some k →
    (∀ a ∈ l.head?, r.voltages ≠ a.1.voltages → 0 < a.1.evaluated) → MovesEvaluated l →
    ∃ h', appendAll h l = .ok h' := by
  induction l with
  | nil => intro h rs r k _ _ _ _; exact ⟨h, rfl⟩
  | cons a l ih =>
    obtain ⟨a, p⟩ := a
    intro h rs r k h1 h2 h3 h4
    obtain ⟨h', rs', r', k', e1, e2, e3, e4, -⟩ := append_ok p h1 h2 (h3 (a, p) (by simp))
    unfold appendAll
    rw [e1]
    refine ih e2 e4 ?_ (List.IsChain.tail h4)
    intro b hb
    rw [e3]
    cases l with
    | nil => simp at hb
    | cons c l =>
      simp at hb
      subst hb
      exact (List.isChain_cons_cons.mp h4).1

/-! ## `columns` and `slice` -/

theorem slice_one {β : Type} (f : Nat → β) {n i : Nat} (h : i < n) :
    slice ((List.range n).map f) i (i + 1) = [f i] := by
  unfold slice
  rw [← List.map_take, ← List.map_drop, List.take_range, Nat.min_eq_left (by omega), List.range_succ]
  simp

theorem slice_empty {β : Type} (l : List β) {i j : Nat} (h : j ≤ i) : slice l i j = [] := by
  unfold slice
  rw [List.drop_eq_nil_iff]
  simp; omega

variable [DecidableEq κ]

theorem lookup_of_mem {l : List (κ × ρ)} (hn : (l.map Prod.fst).Nodup) {c : κ} {y : ρ} (h : (c, y) ∈ l) :
    l.lookup c = some y := by
  induction l with
  | nil => simp at h
  | cons a l ih =>
    obtain ⟨d, z⟩ := a
    simp only [List.map_cons, List.nodup_cons] at hn
    rw [List.lookup_cons]
    rcases List.mem_cons.mp h with h' | h'
    · cases h'; simp
    · have : c ≠ d := by
        rintro rfl
        exact hn.1 (List.mem_map.mpr ⟨(_, _), h', rfl⟩)
      have : (c == d) = false := by simpa using this
      rw [this]
      exact ih hn.2 h'

theorem lookup_of_mem' {l : List (κ × ρ)} {c : κ} {y : ρ} (h : (c, y) ∈ l) (hu : ∀ z, (c, z) ∈ l → z = y) :
    l.lookup c = some y := by
  induction l with
  | nil => simp at h
  | cons a l ih =>
    obtain ⟨d, z⟩ := a
    rw [List.lookup_cons]
    by_cases hd : c = d
    · subst hd
      simp [hu z (by simp)]
    · have : (c == d) = false := by simpa using hd
      rw [this]
      refine ih ?_ fun z hz => hu z (List.mem_cons_of_mem _ hz)
      rcases List.mem_cons.mp h with h' | h'
      · cases h'; exact absurd rfl hd
      · exact h'

theorem mem_columns {ts : List (List (κ × ρ))} {e : κ × ρ} : e ∈ columns ts ↔ ∃ t ∈ ts, e ∈ t := by
  simp [columns]

theorem mem_slice {β : Type} {l : List β} {i j : Nat} {e : β} (h : e ∈ slice l i j) : e ∈ l :=
  List.mem_of_mem_take (List.mem_of_mem_drop h)

theorem lookup_append_left {l m : List (κ × ρ)} {c : κ} {y : ρ} (h : l.lookup c = some y) :
    (l ++ m).lookup c = some y := by
  induction l with
  | nil => simp at h
  | cons a l ih =>
    obtain ⟨d, z⟩ := a
    rw [List.cons_append, List.lookup_cons]
    rw [List.lookup_cons] at h
    split at h
    · exact h
    · exact ih h

theorem lookup_append_right {l m : List (κ × ρ)} {c : κ} (h : ∀ z, (c, z) ∉ l) :
    (l ++ m).lookup c = m.lookup c := by
  induction l with
  | nil => rfl
  | cons a l ih =>
    obtain ⟨d, z⟩ := a
    rw [List.cons_append, List.lookup_cons]
    have : (c == d) = false := by
      rw [beq_eq_false_iff_ne]
      rintro rfl
      exact h z (by simp)
    rw [this]
    exact ih fun z hz => h z (List.mem_cons_of_mem _ hz)

end Qtune.History
