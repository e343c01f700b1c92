import Verif.Newton.PropsNew

/-! # The constructor of the Newton solver with the gates of the estimators (C110) -/

namespace Qtune.Newton

variable {E ι : Type} [DecidableEq ι]

/-- The constructor with the assertions in the order of the code (solver.py:169-183); `estGates e` are the
labels of `e.current_position`.  `new` is the rest of it. -/
def construct (estGates : E → List ι) (target : Target) (ests : List E) (gates : List ι) (pos : ι → Val)
    (values : Option Series) : Except PyErr (State E ι) :=
  if target.length ≠ ests.length then .error .assertionError                          -- line 171
  else if ests.all fun e => gates.all fun g => g ∈ estGates e then                    -- lines 173-174
    new target ests gates pos values
  else .error .assertionError

/-- **C110**, the constructor with the gates of the estimators: it succeeds exactly if the set up is
consistent and every estimator knows all gates of the solver, and raises `AssertionError` otherwise. -/
theorem construct_checks (estGates : E → List ι) (target : Target) (ests : List E) (gates : List ι)
    (pos : ι → Val) (values : Option Series) :
    (Consistent target ests gates values ∧ (∀ e ∈ ests, ∀ g ∈ gates, g ∈ estGates e) →
      ∃ s, construct estGates target ests gates pos values = .ok s ∧
        s.target = target ∧ s.ests = ests ∧ s.gates = gates ∧ s.pos = pos ∧
        s.values.index = target.names ∧
        ∀ l ∈ target.names, s.values.val l = match values with
          | some vs => vs.val l
          | none => none) ∧
    (¬ (Consistent target ests gates values ∧ ∀ e ∈ ests, ∀ g ∈ gates, g ∈ estGates e) →
      construct estGates target ests gates pos values = .error .assertionError) := by
  have hall : (ests.all fun e => gates.all fun g => decide (g ∈ estGates e)) = true ↔
      ∀ e ∈ ests, ∀ g ∈ gates, g ∈ estGates e := by
    simp [List.all_eq_true]
  obtain ⟨h1, h2⟩ := constructor_checks target ests gates pos values
  constructor
  · rintro ⟨hc, hg⟩
    unfold construct
    rw [if_neg (by simpa using hc.estimators.symm), if_pos (hall.2 hg)]
    exact h1 hc
  · intro h
    unfold construct
    split_ifs with ha hb
    · rfl
    · exact h2 fun hc => h ⟨hc, hall.1 hb⟩
    · rfl

/-- Two gates, one parameter: an estimator that knows both gates is accepted, one that knows only the first
is not. -/
example (pos : Nat → Val) : let T : Target := [⟨"p", some 1, none, none, some 1, none, some 1⟩]
    (∃ s, construct (E := List Nat) id T [[0, 1]] [0, 1] pos none = .ok s) ∧
    construct (E := List Nat) id T [[0]] [0, 1] pos none = .error .assertionError := by
  intro T
  constructor
  · obtain ⟨s, hs, -⟩ := (construct_checks (E := List Nat) id T [[0, 1]] [0, 1] pos none).1
      ⟨⟨rfl, by decide, by simp⟩, by simp⟩
    exact ⟨s, hs⟩
  · exact (construct_checks (E := List Nat) id T [[0]] [0, 1] pos none).2 fun h => by
      simpa using h.2 [0] (by simp) 1 (by simp)

end Qtune.Newton
