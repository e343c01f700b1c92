import Verif.Newton.StateModel
import Mathlib.Data.List.Basic
import Mathlib.Data.List.Lookmap
import Mathlib.Data.List.Nodup
import Mathlib.Data.List.Pairwise

/-!
# What the state of a tuner shows (C192)
-/

namespace Qtune.SolverState

/-- The estimator of the parameter `p` knows its gradient `s`. -/
def Knows (names : List String) (gradients : List (Option Series)) (p : String) (s : Series) : Prop :=
  ∃ i : Nat, names[i]? = some p ∧ gradients[i]? = some (some s)

theorem mem_known {names : List String} {gradients : List (Option Series)} {p : String} {s : Series} :
    (p, s) ∈ known names gradients ↔ Knows names gradients p s := by
  unfold known Knows
  rw [List.mem_filterMap]
  constructor
  · rintro ⟨⟨q, o⟩, hm, he⟩
    obtain ⟨i, hi⟩ := List.mem_iff_getElem?.1 hm
    rw [List.getElem?_zip_eq_some] at hi
    cases o with
    | none => simp at he
    | some t =>
      simp only [Option.map_some, Option.some.injEq, Prod.mk.injEq] at he
      obtain ⟨rfl, rfl⟩ := he
      exact ⟨i, hi.1, hi.2⟩
  · rintro ⟨i, h1, h2⟩
    refine ⟨(p, some s), List.mem_iff_getElem?.2 ⟨i, ?_⟩, rfl⟩
    rw [List.getElem?_zip_eq_some]
    exact ⟨h1, h2⟩

/-- **C192**: if the state of a tuner with a Newton solver can be read, it consists of the derivatives of the parameters whose gradients are known with
respect to the gates of the solver, each under the name of parameter and gate, and of nothing else. -/
theorem state_entries (names : List String) (gradients : List (Option Series)) (gates : List String) (st : Series)
    (h : state (.newton names gradients gates) = .ok (.series st)) (l : String) (x : Val) :
    (l, x) ∈ st ↔ ∃ p s g, Knows names gradients p s ∧ g ∈ gates ∧ l = "d" ++ p ++ "/d" ++ g ∧ x = s.val g := by
  simp only [state] at h
  split at h
  · cases h
  split at h
  · cases h
    simp only [List.mem_flatMap, List.mem_map, Prod.mk.injEq, Prod.exists]
    constructor
    · rintro ⟨p, s, hm, g, hg, rfl, rfl⟩
      exact ⟨p, s, g, mem_known.1 hm, hg, rfl, rfl⟩
    · rintro ⟨p, s, g, hk, hg, rfl, rfl⟩
      exact ⟨p, s, mem_known.2 hk, g, hg, rfl, rfl⟩
  · cases h

/-- **C192**: when the state cannot be read: no gradient is known (`ValueError`, the situation of a new solver with estimators without measurements), or a gate of the
solver does not occur in any known gradient (`KeyError`). -/
theorem state_errors (names : List String) (gradients : List (Option Series)) (gates : List String) :
    ((¬ ∃ p s, Knows names gradients p s) → state (.newton names gradients gates) = .error .valueError) ∧
    ((∃ p s, Knows names gradients p s) → (∃ g ∈ gates, ∀ p s, Knows names gradients p s → g ∉ s.index) →
      state (.newton names gradients gates) = .error .keyError) ∧
    ((∃ p s, Knows names gradients p s) → (∀ g ∈ gates, ∃ p s, Knows names gradients p s ∧ g ∈ s.index) →
      ∃ st, state (.newton names gradients gates) = .ok (.series st)) := by
  have hempty : (known names gradients).isEmpty = true ↔ ¬ ∃ p s, Knows names gradients p s := by
    rw [List.isEmpty_iff, List.eq_nil_iff_forall_not_mem]
    constructor
    · rintro h ⟨p, s, hk⟩
      exact h _ (mem_known.2 hk)
    · rintro h ⟨p, s⟩ hm
      exact h ⟨p, s, mem_known.1 hm⟩
  have hall : (gates.all fun g => (known names gradients).any fun r => r.2.index.contains g) = true ↔
      ∀ g ∈ gates, ∃ p s, Knows names gradients p s ∧ g ∈ s.index := by
    simp only [List.all_eq_true, List.any_eq_true, List.contains_iff_mem, Prod.exists]
    refine forall₂_congr fun g _ => ?_
    constructor
    · rintro ⟨p, s, hm, hg⟩
      exact ⟨p, s, mem_known.1 hm, hg⟩
    · rintro ⟨p, s, hm, hg⟩
      exact ⟨p, s, mem_known.2 hm, hg⟩
  refine ⟨fun h => ?_, fun h hg => ?_, fun h hg => ?_⟩
  · simp only [state, if_pos (hempty.2 h)]
  · have h1 : ¬ (known names gradients).isEmpty = true := fun he => hempty.1 he h
    have h2 : ¬ (gates.all fun g => (known names gradients).any fun r => r.2.index.contains g) = true := by
      intro ha
      obtain ⟨g, hgm, hgn⟩ := hg
      obtain ⟨p, s, hk, hs⟩ := hall.1 ha g hgm
      exact hgn p s hk hs
    simp only [state, if_neg h1, if_neg h2]
  · have h1 : ¬ (known names gradients).isEmpty = true := fun he => hempty.1 he h
    simp only [state, if_neg h1, if_pos (hall.2 hg)]
    exact ⟨_, rfl⟩

/-- The first `/` separates two texts uniquely. -/
theorem split_at {a a' b b' : List Char} (h : a ++ '/' :: b = a' ++ '/' :: b') (ha : '/' ∉ a) (ha' : '/' ∉ a') : a = a' ∧ b = b' := by
  induction a generalizing a' with
  | nil =>
    cases a' with
    | nil => exact ⟨rfl, by simpa using h⟩
    | cons c a' =>
      simp only [List.nil_append, List.cons_append, List.cons.injEq] at h
      exact (ha' (by rw [← h.1]; simp)).elim
  | cons c a ih =>
    cases a' with
    | nil =>
      simp only [List.nil_append, List.cons_append, List.cons.injEq] at h
      exact (ha (by rw [h.1]; simp)).elim
    | cons c' a' =>
      simp only [List.cons_append, List.cons.injEq] at h
      obtain ⟨h1, h2⟩ := ih h.2 (fun hm => ha (List.mem_cons_of_mem _ hm)) (fun hm => ha' (List.mem_cons_of_mem _ hm))
      exact ⟨by rw [h.1, h1], h2⟩

theorem label_toList (p g : String) : (label p g).toList = 'd' :: (p.toList ++ '/' :: 'd' :: g.toList) := by
  simp [label, String.toList_append]

/-- **C192** (partial): if the names of the gates contain no `/`, each name of the state tells parameter and gate. -/
theorem state_names_partial (p p' g g' : String) (hg : '/' ∉ g.toList) (hg' : '/' ∉ g'.toList)
    (h : "d" ++ p ++ "/d" ++ g = "d" ++ p' ++ "/d" ++ g') : p = p' ∧ g = g' := by
  have e := congrArg String.toList (show label p g = label p' g' from h)
  rw [label_toList, label_toList, List.cons.injEq] at e
  have e := congrArg List.reverse e.2
  simp only [List.reverse_append, List.reverse_cons, List.append_assoc, List.singleton_append] at e
  have e' : (g.toList.reverse ++ ['d']) ++ '/' :: p.toList.reverse = (g'.toList.reverse ++ ['d']) ++ '/' :: p'.toList.reverse := by
    simpa using e
  obtain ⟨h1, h2⟩ := split_at e' (by simp [hg]) (by simp [hg'])
  have h1 := List.append_cancel_right h1
  exact ⟨String.toList_injective (List.reverse_injective h2), String.toList_injective (List.reverse_injective h1)⟩

/-- **C192** is false for other names: two derivatives have the same name in the state, so that neither can be read by its name. -/
theorem state_names_refuted (x y : Val) : ∃ st, state (.newton ["a", "a/db"] [some [("b/dc", x), ("c", none)], some [("b/dc", none), ("c", y)]] ["b/dc", "c"]) = .ok (.series st) ∧
    ("da/db/dc", x) ∈ st ∧ ("da/db/dc", y) ∈ st := by
  refine ⟨_, rfl, ?_, ?_⟩
  · simp [known, label, Series.val]
  · have e : (List.lookup "c" [("b/dc", (none : Val)), ("c", y)]).join = y := rfl
    simp [known, label, Series.val, e]

/-- **C192** is false for the solvers without gradients: the state of a Nelder-Mead solver cannot be read, that of a forwarding solver is not a
Series but a method. -/
theorem other_states_refuted : state .nelderMead = .error (.other 1) ∧ state .forwarding = .ok .method ∧ ∀ s, state .forwarding ≠ .ok (.series s) :=
  ⟨rfl, rfl, fun s h => by simp [state] at h⟩

/-- Two parameters, of which one has a gradient. -/
example : ∃ st, state (.newton ["p", "q"] [none, some [("A", some 1), ("B", none)]] ["B", "A"]) = .ok (.series st) :=
  (state_errors _ _ _).2.2 ⟨"q", [("A", some 1), ("B", none)], 1, rfl, rfl⟩ fun g hg =>
    ⟨"q", [("A", some 1), ("B", none)], ⟨1, rfl, rfl⟩, by
      simp only [List.mem_cons, List.not_mem_nil, or_false] at hg
      rcases hg with rfl | rfl <;> simp [Series.index]⟩

end Qtune.SolverState
