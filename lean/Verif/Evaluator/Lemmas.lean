import Verif.Evaluator.Spec
import Mathlib.Data.List.GetD
import Mathlib.Tactic.Ring
import Mathlib.Tactic.Linarith

/-! # Lemmas about the evaluators -/

namespace Qtune.Evaluator

theorem displaced_displacedBy (v : String → ℝ) (g : String) (w : ℝ) : DisplacedBy v (displaced v g w) g w := by
  constructor
  · simp [displaced]; ring
  · intro h hg; simp [displaced, hg]

/-- A run of the loop without failures. -/
theorem scanLoop_ok (w : ℝ) (outcome : Nat → Except PyErr (List ℝ)) (cur : String → ℝ) :
    ∀ (pairs : List (Scan × String)) (s : World), s.volts = cur →
      (∀ k < pairs.length, ∃ d, outcome (s.log.length + k) = .ok d) →
      (scanLoop w outcome cur pairs s).1.volts = cur ∧
      (scanLoop w outcome cur pairs s).1.log = s.log ++ pairs.map (fun p => (p.1, displaced cur p.2 w)) ∧
      ∃ ds, (scanLoop w outcome cur pairs s).2 = .ok ds ∧ ds.length = pairs.length ∧
        ∀ k < pairs.length, outcome (s.log.length + k) = .ok (ds.getD k [])
  | [], s, hs, _ => ⟨by simp [scanLoop, hs], by simp [scanLoop], [], by simp [scanLoop]⟩
  | (m, g) :: rest, s, hs, hok => by
    obtain ⟨d, hd⟩ := hok 0 (by simp)
    simp only [Nat.add_zero] at hd
    set s' : World := ⟨cur, s.log ++ [(m, displaced cur g w)]⟩ with hs'
    have hlen : s'.log.length = s.log.length + 1 := by simp [hs']
    obtain ⟨h1, h2, ds, h3, h4, h5⟩ := scanLoop_ok w outcome cur rest s' rfl (by
      intro k hk
      obtain ⟨d', hd'⟩ := hok (k + 1) (by simp; omega)
      exact ⟨d', by rw [hlen, ← hd']; congr 1; omega⟩)
    have hstep : scanLoop w outcome cur ((m, g) :: rest) s =
        ((scanLoop w outcome cur rest s').1, .ok (d :: ds)) := by
      rw [scanLoop, hd]
      dsimp only
      rw [← hs']
      revert h3
      cases scanLoop w outcome cur rest s' with
      | mk a b => intro h3; simp only at h3; subst h3; rfl
    rw [hstep]
    refine ⟨h1, by rw [h2]; simp [hs'], d :: ds, rfl, by simp [h4], ?_⟩
    intro k hk
    match k with
    | 0 => simpa using hd
    | k + 1 =>
      have := h5 k (by simp at hk; omega)
      rw [hlen] at this
      simpa [Nat.add_assoc, Nat.add_comm 1 k] using this

/-- A run of the loop in which measurement `k` is the first to fail. -/
theorem scanLoop_error (w : ℝ) (outcome : Nat → Except PyErr (List ℝ)) (cur : String → ℝ) :
    ∀ (pairs : List (Scan × String)) (s : World) (k : Nat) (e : PyErr) (m : Scan) (g : String),
      pairs[k]? = some (m, g) →
      (∀ j < k, ∃ d, outcome (s.log.length + j) = .ok d) → outcome (s.log.length + k) = .error e →
      (scanLoop w outcome cur pairs s).1.volts = displaced cur g w ∧ (scanLoop w outcome cur pairs s).2 = .error e
  | [], s, k, e, m, g, hg, _, _ => by simp at hg
  | (m0, g0) :: rest, s, 0, e, m, g, hg, _, he => by
    simp at hg
    simp only [Nat.add_zero] at he
    rw [scanLoop, he]
    exact ⟨by rw [hg.2], rfl⟩
  | (m0, g0) :: rest, s, k + 1, e, m, g, hg, hok, he => by
    obtain ⟨d, hd⟩ := hok 0 (by omega)
    simp only [Nat.add_zero] at hd
    set s' : World := ⟨cur, s.log ++ [(m0, displaced cur g0 w)]⟩ with hs'
    have hlen : s'.log.length = s.log.length + 1 := by simp [hs']
    obtain ⟨h1, h2⟩ := scanLoop_error w outcome cur rest s' k e m g (by simpa using hg)
      (by
        intro j hj
        obtain ⟨d', hd'⟩ := hok (j + 1) (by omega)
        exact ⟨d', by rw [hlen, ← hd']; congr 1; omega⟩)
      (by rw [hlen, ← he]; congr 1; omega)
    rw [scanLoop, hd]
    dsimp only
    rw [← hs']
    revert h1 h2
    cases scanLoop w outcome cur rest s' with
    | mk a b => intro h1 h2; simp only at h2; subst h2; exact ⟨h1, rfl⟩

/-! ## setItem -/

theorem lookup_setItem {α : Type} (s : List (String × α)) (l : String) (v : α) (k : String) :
    (setItem s l v).lookup k = if k = l then some v else s.lookup k := by
  unfold setItem
  split
  · rename_i h
    induction s with
    | nil => simp at h
    | cons a t ih =>
      obtain ⟨a, x⟩ := a
      by_cases hal : a = l
      · subst hal
        simp only [List.map_cons, beq_self_eq_true, if_true, List.lookup_cons]
        by_cases hk : k = a
        · simp [hk]
        · have hb : (k == a) = false := by simp [hk]
          simp only [hb, if_neg hk]
          by_cases ht : t.any (·.1 == a)
          · have := ih ht; rw [if_neg hk] at this; exact this
          · have : (t.map fun p => if p.1 == a then (a, v) else p) = t := by
              rw [List.map_congr_left (g := id)]
              · simp
              · intro p hp
                have : (p.1 == a) = false := by
                  by_contra hc
                  exact ht (List.any_eq_true.mpr ⟨p, hp, by simpa using hc⟩)
                simp [this]
            rw [this]
      · have hb : (a == l) = false := by simp [hal]
        have ht : t.any (·.1 == l) := by simpa [hb] using h
        simp only [List.map_cons, hb, List.lookup_cons, Bool.false_eq_true, if_false]
        by_cases hka : k = a
        · simp [hka, hal]
        · have hb2 : (k == a) = false := by simp [hka]
          simp only [hb2]
          exact ih ht
  · rename_i h
    induction s with
    | nil =>
      by_cases hk : k = l
      · simp [hk]
      · have : (k == l) = false := by simp [hk]
        simp [List.lookup_cons, this, hk]
    | cons a t ih =>
      obtain ⟨a, x⟩ := a
      simp only [List.any_cons, Bool.or_eq_true, not_or] at h
      have hal : a ≠ l := by simpa using h.1
      simp only [List.cons_append, List.lookup_cons]
      by_cases hka : k = a
      · simp [hka, hal]
      · have hb2 : (k == a) = false := by simp [hka]
        simp only [hb2]
        exact ih h.2

theorem index_setItem {α : Type} (s : List (String × α)) (l : String) (v : α) :
    (setItem s l v).map Prod.fst = if l ∈ s.map Prod.fst then s.map Prod.fst else s.map Prod.fst ++ [l] := by
  unfold setItem
  have hiff : s.any (·.1 == l) = true ↔ l ∈ s.map Prod.fst := by
    rw [List.any_eq_true, List.mem_map]
    constructor
    · rintro ⟨p, hp, h⟩; exact ⟨p, hp, by simpa using h⟩
    · rintro ⟨p, hp, h⟩; exact ⟨p, hp, by simpa using h⟩
  by_cases h : l ∈ s.map Prod.fst
  · rw [if_pos (hiff.mpr h), if_pos h, List.map_map]
    apply List.map_congr_left
    intro p _
    by_cases hp : p.1 = l <;> simp [hp]
  · rw [if_neg (fun hc => h (hiff.mp hc)), if_neg h]
    simp

/-! ## Averaging -/

theorem repetitions_ok {outcome : Nat → Except PyErr Series} : ∀ {n : Nat} {l : List Series},
    repetitions outcome n = .ok l → l.length = n ∧ ∀ k < n, outcome k = .ok (l.getD k [])
  | 0, l, h => by cases h; simp
  | n + 1, l, h => by
    rw [repetitions] at h
    split at h
    · cases h
    · rename_i l' hl'
      split at h
      · cases h
      · rename_i s hs
        cases h
        obtain ⟨h1, h2⟩ := repetitions_ok hl'
        refine ⟨by simp [h1], fun k hk => ?_⟩
        by_cases hkn : k < n
        · rw [h2 k hkn, List.getD_append _ _ _ _ (by omega)]
        · have : k = n := by omega
          subst this
          rw [hs, List.getD_append_right _ _ _ _ (by omega)]
          simp [h1]

theorem repetitions_error {outcome : Nat → Except PyErr Series} : ∀ {n : Nat} {e : PyErr},
    repetitions outcome n = .error e → ∃ k < n, outcome k = .error e
  | 0, e, h => by cases h
  | n + 1, e, h => by
    rw [repetitions] at h
    split at h
    · rename_i e' he'
      cases h
      obtain ⟨k, hk, hk'⟩ := repetitions_error he'
      exact ⟨k, by omega, hk'⟩
    · split at h
      · rename_i e' he'
        cases h
        exact ⟨n, by omega, he'⟩
      · cases h

theorem column_ok {p : String} : ∀ {reps : List Series} {l : List Val}, column p reps = .ok l →
    l = reps.map fun s => s.val p
  | [], l, h => by cases h; rfl
  | s :: rest, l, h => by
    rw [column] at h
    split at h
    · cases h
    · rename_i v hv
      split at h
      · cases h
      · rename_i l' hl'
        cases h
        rw [List.map_cons, ← column_ok hl']
        simp [Series.val, hv]

theorem column_error {p : String} : ∀ {reps : List Series} {e : PyErr}, column p reps = .error e →
    e = .keyError ∧ ∃ s ∈ reps, s.lookup p = none
  | [], e, h => by cases h
  | s :: rest, e, h => by
    rw [column] at h
    split at h
    · rename_i hv
      cases h
      exact ⟨rfl, s, by simp, hv⟩
    · split at h
      · rename_i e' he'
        cases h
        obtain ⟨h1, t, ht, h2⟩ := column_error he'
        exact ⟨h1, t, by simp [ht], h2⟩
      · cases h

theorem averages_ok {reps : List Series} : ∀ {ps : List String} {a b a' b' : Series},
    averages reps ps a b = .ok (a', b') →
    (∀ q, (q ∈ ps → a'.lookup q = some (nanmean (reps.map fun s => s.val q)) ∧
        b'.lookup q = some (nanvarOfMean (reps.map fun s => s.val q))) ∧
      (q ∉ ps → a'.lookup q = a.lookup q ∧ b'.lookup q = b.lookup q))
  | [], a, b, a', b', h => by cases h; simp
  | p :: ps, a, b, a', b', h => by
    rw [averages] at h
    split at h
    · cases h
    · rename_i l hl
      have hcol := column_ok hl
      intro q
      obtain ⟨h1, h2⟩ := averages_ok h q
      by_cases hq : q ∈ ps
      · exact ⟨fun _ => h1 hq, fun hc => absurd (List.mem_cons_of_mem _ hq) hc⟩
      · obtain ⟨h2a, h2b⟩ := h2 hq
        rw [lookup_setItem] at h2a h2b
        by_cases hqp : q = p
        · subst hqp
          simp only [if_true] at h2a h2b
          exact ⟨fun _ => by rw [h2a, h2b, hcol]; exact ⟨rfl, rfl⟩, fun hc => absurd List.mem_cons_self hc⟩
        · rw [if_neg hqp] at h2a h2b
          refine ⟨fun hc => ?_, fun _ => ⟨h2a, h2b⟩⟩
          rcases List.mem_cons.mp hc with h | h
          · exact absurd h hqp
          · exact absurd h hq

theorem averages_error {reps : List Series} : ∀ {ps : List String} {a b : Series} {e : PyErr},
    averages reps ps a b = .error e → e = .keyError ∧ ∃ p ∈ ps, ∃ s ∈ reps, s.lookup p = none
  | [], a, b, e, h => by cases h
  | p :: ps, a, b, e, h => by
    rw [averages] at h
    split at h
    · rename_i e' he'
      cases h
      obtain ⟨h1, s, hs, h2⟩ := column_error he'
      exact ⟨h1, p, by simp, s, hs, h2⟩
    · obtain ⟨h1, q, hq, h2⟩ := averages_error h
      exact ⟨h1, q, by simp [hq], h2⟩

theorem column_no_missing {p : String} : ∀ {reps : List Series} {l : List Val}, column p reps = .ok l →
    ∀ s ∈ reps, s.lookup p ≠ none
  | [], l, h => by simp
  | s :: rest, l, h => by
    rw [column] at h
    split at h
    · cases h
    · rename_i v hv
      split at h
      · cases h
      · rename_i l' hl'
        intro t ht
        rcases List.mem_cons.mp ht with rfl | ht
        · rw [hv]; simp
        · exact column_no_missing hl' t ht

theorem averages_no_missing {reps : List Series} : ∀ {ps : List String} {a b : Series} {ab : Series × Series},
    averages reps ps a b = .ok ab → ∀ p ∈ ps, ∀ s ∈ reps, s.lookup p ≠ none
  | [], a, b, ab, h => by simp
  | p :: ps, a, b, ab, h => by
    rw [averages] at h
    split at h
    · cases h
    · rename_i l hl
      intro q hq
      rcases List.mem_cons.mp hq with rfl | hq
      · exact column_no_missing hl
      · exact averages_no_missing h q hq

theorem present_map_val (reps : List Series) (outcome : Nat → Except PyErr Series) (p : String) (n : Nat)
    (h : reps.length = n ∧ ∀ k < n, outcome k = .ok (reps.getD k [])) :
    present (reps.map fun s => s.val p) = measured outcome p n := by
  have : reps = (List.range n).map fun k => reps.getD k [] := by
    apply List.ext_getElem
    · simp [h.1]
    · intro i h1 h2
      simp [List.getD_eq_getElem?_getD, h1]
  unfold present measured
  conv_lhs => rw [this, List.map_map, List.filterMap_map]
  apply List.filterMap_congr
  intro k hk
  have := h.2 k (by simpa using hk)
  simp [this]

end Qtune.Evaluator
