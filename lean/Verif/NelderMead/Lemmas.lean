import Verif.NelderMead.Model

/-! # Runs of the Nelder-Mead solver and their invariant -/

namespace Qtune.NelderMead

open Qtune.Gradient

variable {n : Nat} {V : Type}

/-- `Run orth cost s h`: starting with `from_scratch`, calls of `suggest_next_position` and of
`update_after_step` in any order and with any positions and values lead to the state `s`; `h` are the
measured points in their order, including the initial one. -/
inductive Run (orth : Orth n) (cost : V → ℝ) : State n V → List (Vec n × V) → Prop
  | start (span pos : Vec n) (vals : V) : Run orth cost (fromScratch span pos vals) [(pos, vals)]
  | suggest {s h} : Run orth cost s h → Run orth cost (NelderMead.suggest orth s).1 h
  | update {s h} (p : Vec n) (v : V) : Run orth cost s h →
      Run orth cost (NelderMead.update cost p v s).1 (h ++ [(p, v)])

/-- Sorted by cost. -/
def Sorted (cost : V → ℝ) (l : List (Vec n × V)) : Prop := l.Pairwise fun a b => cost a.2 ≤ cost b.2

/-- Each point of `h` has a point in `l` that is at least as good. -/
def Dominates (cost : V → ℝ) (l h : List (Vec n × V)) : Prop :=
  ∀ e ∈ h, ∃ k ∈ l, cost k.2 ≤ cost e.2

theorem Dominates.refl (cost : V → ℝ) (l : List (Vec n × V)) : Dominates cost l l :=
  fun e he => ⟨e, he, le_refl _⟩

theorem Dominates.trans {cost : V → ℝ} {a b c : List (Vec n × V)} (h : Dominates cost a b)
    (h' : Dominates cost b c) : Dominates cost a c := by
  intro e he
  obtain ⟨k, hk, hle⟩ := h' e he
  obtain ⟨k', hk', hle'⟩ := h k hk
  exact ⟨k', hk', hle'.trans hle⟩

theorem Dominates.append {cost : V → ℝ} {a b c : List (Vec n × V)} (h : Dominates cost a b)
    (h' : Dominates cost a c) : Dominates cost a (b ++ c) := by
  intro e he
  rcases List.mem_append.1 he with he | he
  · exact h e he
  · exact h' e he

theorem Dominates.mono {cost : V → ℝ} {a a' b : List (Vec n × V)} (h : Dominates cost a b)
    (ha : a ⊆ a') : Dominates cost a' b := by
  intro e he
  obtain ⟨k, hk, hle⟩ := h e he
  exact ⟨k, ha hk, hle⟩

theorem Dominates.of_subset {cost : V → ℝ} {a b : List (Vec n × V)} (h : b ⊆ a) : Dominates cost a b :=
  fun e he => ⟨e, h he, le_refl _⟩

theorem sortByCost_perm (cost : V → ℝ) (l : List (Vec n × V)) : (sortByCost cost l).Perm l :=
  List.mergeSort_perm _ _

theorem sortByCost_sorted (cost : V → ℝ) (l : List (Vec n × V)) : Sorted cost (sortByCost cost l) := by
  have := List.pairwise_mergeSort (le := fun a b : Vec n × V => decide (cost a.2 ≤ cost b.2))
    (by intro a b c; simpa using le_trans) (by intro a b; simpa using le_total _ _) l
  unfold Sorted sortByCost
  simpa using this

theorem insert_length (cost : V → ℝ) (l : List (Vec n × V)) (e : Vec n × V) :
    (insert cost l e).length = l.length := by
  unfold insert
  rw [List.length_dropLast, (sortByCost_perm cost _).length_eq]
  simp

theorem insert_sorted (cost : V → ℝ) (l : List (Vec n × V)) (e : Vec n × V) :
    Sorted cost (insert cost l e) :=
  (sortByCost_sorted cost _).sublist (List.dropLast_sublist _)

theorem insert_subset (cost : V → ℝ) (l : List (Vec n × V)) (e : Vec n × V) :
    insert cost l e ⊆ l ++ [e] := fun _ h =>
  (sortByCost_perm cost _).mem_iff.1 (List.dropLast_subset _ h)

theorem insert_dominates (cost : V → ℝ) (l : List (Vec n × V)) (e : Vec n × V) (hl : l ≠ []) :
    Dominates cost (insert cost l e) (l ++ [e]) := by
  intro x hx
  have hp := sortByCost_perm cost (l ++ [e])
  have hs := sortByCost_sorted cost (l ++ [e])
  have hx' := hp.mem_iff.2 hx
  unfold insert
  have hlen := hp.length_eq
  rcases hS : sortByCost cost (l ++ [e]) with _ | ⟨a, _ | ⟨b, t⟩⟩
  · rw [hS] at hx'; cases hx'
  · rw [hS] at hlen
    have := List.length_pos_of_ne_nil hl
    simp at hlen
    exact absurd hlen hl
  · rw [hS] at hx' hs
    refine ⟨a, by simp, ?_⟩
    rcases List.mem_cons.1 hx' with rfl | hx'
    · exact le_refl _
    · exact (List.pairwise_cons.1 hs).1 x hx'

theorem foldl_insert (cost : V → ℝ) (new l : List (Vec n × V)) (hl : l ≠ []) :
    (new.foldl (insert cost) l).length = l.length ∧ (new.foldl (insert cost) l) ⊆ l ++ new ∧
    Dominates cost (new.foldl (insert cost) l) (l ++ new) ∧
    (Sorted cost l → Sorted cost (new.foldl (insert cost) l)) := by
  induction new generalizing l with
  | nil => simpa using Dominates.refl cost l
  | cons e new ih =>
    have hne : insert cost l e ≠ [] := by
      intro h
      have := insert_length cost l e
      rw [h] at this
      exact hl (List.length_eq_zero_iff.1 this.symm)
    obtain ⟨h1, h2, h3, h4⟩ := ih _ hne
    refine ⟨?_, ?_, ?_, ?_⟩
    · rw [List.foldl_cons, h1, insert_length]
    · intro x hx
      rcases List.mem_append.1 (h2 hx) with hx | hx
      · have := insert_subset cost l e hx
        simp at this ⊢
        tauto
      · simp [hx]
    · rw [List.foldl_cons, show l ++ e :: new = (l ++ [e]) ++ new by simp]
      refine h3.trans (Dominates.append ?_ (Dominates.of_subset (List.subset_append_right _ _)))
      exact (insert_dominates cost l e hl).mono (List.subset_append_left _ _)
    · intro _
      exact h4 (insert_sorted cost l e)

/-- The points that the solver still remembers: the simplex, the shrunk points that have been
measured so far, and the reflected point while the expansion point is awaited. -/
def kept (s : State n V) : List (Vec n × V) :=
  s.simplex ++ s.shrunk ++ if s.phase = .expand then s.reflected.toList else []

/-- The invariant. -/
structure Inv (cost : V → ℝ) (s : State n V) (h : List (Vec n × V)) : Prop where
  nonempty : 0 < s.simplex.length
  le : s.simplex.length ≤ n + 1
  building : s.simplex.length < n + 1 → s.phase = .buildUp
  complete : s.simplex.length = n + 1 → s.phase ≠ .buildUp ∧ Sorted cost s.simplex
  shrunk : s.shrunk.length < n
  noShrunk : s.phase ≠ .shrink → s.shrunk = []
  expand : s.phase = .expand → ∃ r, s.reflected = some r
  contract : s.phase = .contractOutside → ∃ r, s.reflected = some r ∧ Dominates cost s.simplex [r]
  best : Dominates cost (kept s) h
  measured : kept s ⊆ h

theorem inv_start (hn : n ≠ 0) (cost : V → ℝ) (span pos : Vec n) (vals : V) :
    Inv cost (fromScratch span pos vals) [(pos, vals)] where
  nonempty := by simp [fromScratch]
  le := by simp [fromScratch]
  building := fun _ => rfl
  complete := fun h => by simp [fromScratch] at h; exact absurd h hn
  shrunk := by simp [fromScratch]; omega
  noShrunk := fun _ => rfl
  expand := fun h => by cases h
  contract := fun h => by cases h
  best := Dominates.refl _ _
  measured := fun _ h => h

/-- `suggest_next_position` changes nothing but the phase. -/
theorem suggest_state (orth : Orth n) (s : State n V) :
    (suggest orth s).1 = s ∨
    (s.simplex.length < n + 1 ∧ (suggest orth s).1 = { s with phase := .buildUp }) ∨
    (¬ s.simplex.length < n + 1 ∧ (s.phase = .startIteration ∨ s.phase = .reflect) ∧
      (suggest orth s).1 = { s with phase := .reflect }) := by
  unfold suggest
  simp only
  split
  · exact .inl rfl
  · split
    · rename_i hlt
      split
      · exact .inl rfl
      · split <;> exact .inr (.inl ⟨hlt, rfl⟩)
    · rename_i hlt
      split
      · rename_i hp; exact .inr (.inr ⟨hlt, .inl hp, rfl⟩)
      · rename_i hp; exact .inr (.inr ⟨hlt, .inr hp, rfl⟩)
      · exact .inl rfl
      · exact .inl rfl
      · exact .inl rfl
      · split
        · exact .inl rfl
        · split <;> exact .inl rfl
      · exact .inl rfl

theorem Inv.suggest {cost : V → ℝ} {s : State n V} {h : List (Vec n × V)} (hi : Inv cost s h)
    (orth : Orth n) : Inv cost (NelderMead.suggest orth s).1 h := by
  rcases suggest_state orth s with he | ⟨hlt, he⟩ | ⟨hlt, hp, he⟩
  · rw [he]; exact hi
  · rw [he]
    have : ({ s with phase := .buildUp } : State n V) = s := by
      have := hi.building hlt
      cases s
      simp only at this
      rw [this]
    rw [this]
    exact hi
  · rw [he]
    have hk : kept ({ s with phase := .reflect } : State n V) = kept s := by
      rcases hp with hp | hp <;> simp [kept, hp]
    exact
      { nonempty := hi.nonempty
        le := hi.le
        building := fun h => absurd h hlt
        complete := fun h => ⟨by simp, (hi.complete h).2⟩
        shrunk := hi.shrunk
        noShrunk := fun _ => hi.noShrunk (by rcases hp with hp | hp <;> simp [hp])
        expand := fun h => by cases h
        contract := fun h => by cases h
        best := by rw [hk]; exact hi.best
        measured := by rw [hk]; exact hi.measured }

theorem head?_of_pos {α : Type} {l : List α} (h : 0 < l.length) : ∃ a t, l = a :: t := by
  cases l with
  | nil => simp at h
  | cons a t => exact ⟨a, t, rfl⟩

theorem getLast?_of_pos {α : Type} {l : List α} (h : 0 < l.length) : ∃ a, l.getLast? = some a := by
  cases hl : l.getLast? with
  | none => rw [List.getLast?_eq_none_iff] at hl; subst hl; simp at h
  | some a => exact ⟨a, rfl⟩

/-- The invariant is preserved by `update_after_step`, which does not raise.  A complete simplex stays
complete and its best point is at least as good as before. -/
theorem Inv.step {cost : V → ℝ} {s : State n V} {h : List (Vec n × V)} (hn : n ≠ 0)
    (hi : Inv cost s h) (p : Vec n) (v : V) :
    ∃ s', NelderMead.step cost p v s = (s', .ok ()) ∧ Inv cost s' (h ++ [(p, v)]) ∧
      (s.simplex.length = n + 1 → s'.simplex.length = n + 1 ∧
        Dominates cost s'.simplex s.simplex) := by
  unfold NelderMead.step
  simp only
  by_cases hlt : s.simplex.length < n + 1
  · have hb := hi.building hlt
    have hkept : kept s = s.simplex := by simp [kept, hb, hi.noShrunk]
    have hbest := hi.best
    have hmeas := hi.measured
    rw [hkept] at hbest hmeas
    rw [if_pos hlt]
    by_cases hl : (s.simplex ++ [(p, v)]).length = n + 1
    · rw [if_pos hl]
      refine ⟨_, rfl, ?_, fun h => by omega⟩
      have hperm := sortByCost_perm cost (s.simplex ++ [(p, v)])
      have hk' : kept { s with
          simplex := sortByCost cost (s.simplex ++ [(p, v)])
          phase := .startIteration } = sortByCost cost (s.simplex ++ [(p, v)]) := by
        simp [kept, hi.noShrunk, hb]
      exact
        { nonempty := by simp only; rw [hperm.length_eq, hl]; omega
          le := by simp only; rw [hperm.length_eq, hl]
          building := fun h => by simp only at h; rw [hperm.length_eq, hl] at h; omega
          complete := fun _ => ⟨by simp, sortByCost_sorted _ _⟩
          shrunk := hi.shrunk
          noShrunk := fun _ => hi.noShrunk (by simp [hb])
          expand := fun h => by cases h
          contract := fun h => by cases h
          best := by
            rw [hk']
            refine (Dominates.append (hbest.mono ?_) (Dominates.of_subset ?_))
            · intro x hx
              exact hperm.mem_iff.2 (by simp [hx])
            · intro x hx
              exact hperm.mem_iff.2 (by simp at hx; simp [hx])
          measured := by
            rw [hk']
            intro x hx
            have := hperm.mem_iff.1 hx
            rcases List.mem_append.1 this with hx | hx
            · exact List.mem_append_left _ (hmeas hx)
            · exact List.mem_append_right _ hx }
    · rw [if_neg hl]
      refine ⟨_, rfl, ?_, fun h => by omega⟩
      have hk' : kept { s with simplex := s.simplex ++ [(p, v)] } = s.simplex ++ [(p, v)] := by
        simp [kept, hi.noShrunk, hb]
      simp only [List.length_append, List.length_singleton] at hl
      exact
        { nonempty := by simp
          le := by simp; omega
          building := fun _ => hb
          complete := fun h => by simp at h; omega
          shrunk := hi.shrunk
          noShrunk := fun _ => hi.noShrunk (by simp [hb])
          expand := fun h => by simp [hb] at h
          contract := fun h => by simp [hb] at h
          best := by
            rw [hk']
            exact Dominates.append (hbest.mono (List.subset_append_left _ _))
              (Dominates.of_subset (List.subset_append_right _ _))
          measured := by
            rw [hk']
            exact List.append_subset.2 ⟨fun x hx => List.mem_append_left _ (hmeas hx),
              List.subset_append_right _ _⟩ }
  · rw [if_neg hlt]
    have hlen : s.simplex.length = n + 1 := by have := hi.le; omega
    have hne : s.simplex ≠ [] := List.ne_nil_of_length_pos hi.nonempty
    obtain ⟨hnb, hsorted⟩ := hi.complete hlen
    -- a point is inserted and the phase stays the same
    have hins : ∀ (x : Vec n × V) (ph : Phase) (rf : Option (Vec n × V)), ph ≠ .buildUp → ph ≠ .shrink →
        s.phase ≠ .shrink →
        x ∈ h ++ [(p, v)] → (ph = .expand → s.phase = .expand ∧ rf = s.reflected) →
        (s.phase = .expand → ph = .expand) →
        (ph = .contractOutside → s.phase = .contractOutside ∧ rf = s.reflected) →
        Dominates cost (x :: kept s) [(p, v)] →
        Inv cost { s with simplex := insert cost s.simplex x, phase := ph, reflected := rf }
          (h ++ [(p, v)]) := by
      intro x ph rf h1 h1' h1'' h2 h3 h3' h4 h5
      have hd := insert_dominates cost s.simplex x hne
      have hk' : kept { s with simplex := insert cost s.simplex x, phase := ph, reflected := rf } =
          insert cost s.simplex x ++ (if s.phase = .expand then s.reflected.toList else []) := by
        simp only [kept, hi.noShrunk h1'', List.append_nil]
        congr 1
        by_cases he : ph = .expand
        · rw [if_pos he, if_pos (h3 he).1, (h3 he).2]
        · rw [if_neg he, if_neg (fun h => he (h3' h))]
      have hk : kept s = s.simplex ++ (if s.phase = .expand then s.reflected.toList else []) := by
        simp [kept, hi.noShrunk h1'']
      have hdk : Dominates cost (insert cost s.simplex x ++
          (if s.phase = .expand then s.reflected.toList else [])) (x :: kept s) := by
        rw [hk]
        have : x :: (s.simplex ++ (if s.phase = .expand then s.reflected.toList else [])) ⊆
            (s.simplex ++ [x]) ++ (if s.phase = .expand then s.reflected.toList else []) := by
          intro y hy
          simp only [List.mem_cons, List.mem_append] at hy ⊢
          tauto
        exact (Dominates.append (hd.mono (List.subset_append_left _ _))
          (Dominates.of_subset (List.subset_append_right _ _))).trans (Dominates.of_subset this)
      exact
        { nonempty := by simp only [insert_length]; exact hi.nonempty
          le := by simp only [insert_length]; exact hi.le
          building := fun h => by simp only [insert_length] at h; exact absurd h hlt
          complete := fun _ => ⟨h1, insert_sorted _ _ _⟩
          shrunk := hi.shrunk
          noShrunk := fun _ => hi.noShrunk h1''
          expand := fun h => by
            obtain ⟨ha, hb⟩ := h3 h
            simp only [hb]
            exact hi.expand ha
          contract := fun h => by
            obtain ⟨ha, hb⟩ := h4 h
            obtain ⟨r, hr, hdr⟩ := hi.contract ha
            exact ⟨r, by simp only [hb]; exact hr,
              ((hd.trans (Dominates.of_subset (List.subset_append_left _ _))).trans hdr)⟩
          best := by
            rw [hk']
            refine Dominates.append ?_ (hdk.trans h5)
            exact hdk.trans ((Dominates.of_subset (List.subset_cons_self _ _)).trans hi.best)
          measured := by
            rw [hk']
            intro y hy
            rcases List.mem_append.1 hy with hy | hy
            · rcases List.mem_append.1 (insert_subset _ _ _ hy) with hy | hy
              · exact List.mem_append_left _ (hi.measured (by rw [hk]; exact List.mem_append_left _ hy))
              · simp at hy; subst hy; exact h2
            · exact List.mem_append_left _ (hi.measured (by rw [hk]; exact List.mem_append_right _ hy)) }
    have hinsD : ∀ x : Vec n × V, (insert cost s.simplex x).length = n + 1 ∧
        Dominates cost (insert cost s.simplex x) s.simplex := fun x =>
      ⟨by rw [insert_length, hlen],
        (insert_dominates cost s.simplex x hne).trans
          (Dominates.of_subset (List.subset_append_left _ _))⟩
    -- only the phase changes
    have hph : ∀ (ph : Phase) (rf : Option (Vec n × V)), ph ≠ .buildUp → s.phase ≠ .shrink →
        (ph = .expand → s.phase ≠ .expand ∧ rf = some (p, v)) →
        s.phase ≠ .expand →
        (ph ≠ .expand → Dominates cost s.simplex [(p, v)]) →
        (ph = .contractOutside → rf = some (p, v)) →
        Inv cost { s with phase := ph, reflected := rf } (h ++ [(p, v)]) := by
      intro ph rf h1 h1'' h3 h3' h5 h6
      have hk : kept s = s.simplex := by simp [kept, hi.noShrunk h1'', h3']
      have hbest := hi.best
      have hmeas := hi.measured
      rw [hk] at hbest hmeas
      by_cases he : ph = .expand
      · obtain ⟨-, hrf⟩ := h3 he
        have hk' : kept { s with phase := ph, reflected := rf } = s.simplex ++ [(p, v)] := by
          simp [kept, hi.noShrunk h1'', he, hrf]
        exact
          { nonempty := hi.nonempty
            le := hi.le
            building := fun h => absurd h hlt
            complete := fun _ => ⟨h1, hsorted⟩
            shrunk := hi.shrunk
            noShrunk := fun _ => hi.noShrunk h1''
            expand := fun _ => ⟨_, hrf⟩
            contract := fun h => by simp [he] at h
            best := by
              rw [hk']
              exact Dominates.append (hbest.mono (List.subset_append_left _ _))
                (Dominates.of_subset (List.subset_append_right _ _))
            measured := by
              rw [hk']
              exact List.append_subset.2 ⟨fun x hx => List.mem_append_left _ (hmeas hx),
                List.subset_append_right _ _⟩ }
      · have hk' : kept { s with phase := ph, reflected := rf } = s.simplex := by
          simp [kept, hi.noShrunk h1'', he]
        exact
          { nonempty := hi.nonempty
            le := hi.le
            building := fun h => absurd h hlt
            complete := fun _ => ⟨h1, hsorted⟩
            shrunk := hi.shrunk
            noShrunk := fun _ => hi.noShrunk h1''
            expand := fun h => absurd h he
            contract := fun h => ⟨_, h6 h, h5 he⟩
            best := by
              rw [hk']
              exact Dominates.append hbest (h5 he)
            measured := by
              rw [hk']
              exact fun x hx => List.mem_append_left _ (hmeas hx) }
    have hD : s.simplex.length = n + 1 → s.simplex.length = n + 1 ∧
        Dominates cost s.simplex s.simplex := fun h => ⟨h, Dominates.refl _ _⟩
    obtain ⟨b, t, hbt⟩ := head?_of_pos hi.nonempty
    obtain ⟨w, hw⟩ := getLast?_of_pos (l := s.simplex.map fun e => cost e.2) (by simp; exact hi.nonempty)
    obtain ⟨w₂, hw₂⟩ := getLast?_of_pos (l := (s.simplex.map fun e => cost e.2).dropLast)
      (by simp [hlen]; omega)
    have hhead : (s.simplex.map fun e => cost e.2).head? = some (cost b.2) := by simp [hbt]
    have hle : ∀ c ∈ s.simplex.map fun e => cost e.2, cost b.2 ≤ c := by
      intro c hc
      obtain ⟨e, he, rfl⟩ := List.mem_map.1 hc
      rw [hbt] at he
      have := hsorted
      rw [hbt] at this
      rcases List.mem_cons.1 he with rfl | he
      · exact le_refl _
      · exact (List.pairwise_cons.1 this).1 e he
    have hdom : ∀ c, c ∈ (s.simplex.map fun e => cost e.2) → c ≤ cost v →
        Dominates cost s.simplex [(p, v)] := by
      intro c hc hcv e he
      simp at he
      subst he
      exact ⟨b, by simp [hbt], (hle c hc).trans hcv⟩
    have hwm := List.mem_of_getLast? hw
    have hw₂m := List.dropLast_subset _ (List.mem_of_getLast? hw₂)
    cases hphase : s.phase with
    | buildUp => exact absurd hphase hnb
    | startIteration =>
      simp only [hw]
      by_cases hc : cost v < w
      · rw [if_pos hc]
        refine ⟨_, rfl, ?_, fun _ => hinsD _⟩
        refine hins (p, v) .startIteration s.reflected (by simp) (by simp) (by simp [hphase]) (by simp)
          (by simp) (by simp [hphase]) (by simp) ?_
        exact Dominates.of_subset (by simp)
      · rw [if_neg hc]
        refine ⟨_, rfl, ?_, hD⟩
        exact hph .startIteration s.reflected (by simp) (by simp [hphase]) (by simp) (by simp [hphase])
          (fun _ => hdom w hwm (not_lt.1 hc)) (by simp)
    | reflect =>
      simp only [hhead]
      by_cases h1 : cost v < cost b.2
      · rw [if_pos h1]
        refine ⟨_, rfl, ?_, hD⟩
        exact hph .expand (some (p, v)) (by simp) (by simp [hphase]) (by simp [hphase]) (by simp [hphase])
          (by simp) (by simp)
      · rw [if_neg h1]
        have hdv := hdom (cost b.2) (by simp [hbt]) (not_lt.1 h1)
        simp only [hw₂, hw]
        by_cases h2 : w₂ ≤ cost v
        · rw [if_pos h2]
          by_cases h3 : cost v < w
          · rw [if_pos h3]
            refine ⟨_, rfl, ?_, hD⟩
            exact hph .contractOutside (some (p, v)) (by simp) (by simp [hphase]) (by simp)
              (by simp [hphase]) (fun _ => hdv) (by simp)
          · rw [if_neg h3]
            refine ⟨_, rfl, ?_, hD⟩
            exact hph .contractInside (some (p, v)) (by simp) (by simp [hphase]) (by simp)
              (by simp [hphase]) (fun _ => hdv) (by simp)
        · rw [if_neg h2]
          refine ⟨_, rfl, ?_, fun _ => hinsD _⟩
          have := hins (p, v) .reflect (some (p, v)) (by simp) (by simp) (by simp [hphase]) (by simp)
            (by simp) (by simp [hphase]) (by simp) (Dominates.of_subset (by simp))
          simpa [hphase] using this
    | expand =>
      obtain ⟨r, hr⟩ := hi.expand hphase
      simp only [hr]
      have hrk : r ∈ kept s := by simp [kept, hphase, hr]
      by_cases h1 : cost v < cost r.2
      · rw [if_pos h1]
        refine ⟨_, rfl, ?_, fun _ => hinsD _⟩
        have := hins (p, v) .expand s.reflected (by simp) (by simp) (by simp [hphase]) (by simp)
          (by simp [hphase]) (by simp) (by simp) (Dominates.of_subset (by simp))
        simpa [hphase, hr] using this
      · rw [if_neg h1]
        refine ⟨_, rfl, ?_, fun _ => hinsD _⟩
        have := hins r .expand s.reflected (by simp) (by simp) (by simp [hphase])
          (List.mem_append_left _ (hi.measured hrk))
          (by simp [hphase]) (by simp) (by simp) (fun e he => by
            simp at he
            subst he
            exact ⟨r, by simp, not_lt.1 h1⟩)
        simpa [hphase, hr] using this
    | contractOutside =>
      obtain ⟨r, hr, hdr⟩ := hi.contract hphase
      simp only [hr]
      by_cases h1 : cost v < cost r.2
      · rw [if_pos h1]
        refine ⟨_, rfl, ?_, fun _ => hinsD _⟩
        have := hins (p, v) .contractOutside s.reflected (by simp) (by simp) (by simp [hphase]) (by simp)
          (by simp) (by simp [hphase]) (by simp [hphase]) (Dominates.of_subset (by simp))
        simpa [hphase, hr] using this
      · rw [if_neg h1]
        refine ⟨_, rfl, ?_, hD⟩
        have := hph .shrink s.reflected (by simp) (by simp [hphase]) (by simp) (by simp [hphase])
          (fun _ => hdr.trans (fun e he => by
            simp at he
            subst he
            exact ⟨r, by simp, not_lt.1 h1⟩)) (by simp)
        simpa [hr] using this
    | contractInside =>
      simp only [hw]
      by_cases h1 : cost v < w
      · rw [if_pos h1]
        refine ⟨_, rfl, ?_, fun _ => hinsD _⟩
        have := hins (p, v) .contractInside s.reflected (by simp) (by simp) (by simp [hphase]) (by simp)
          (by simp) (by simp [hphase]) (by simp) (Dominates.of_subset (by simp))
        simpa [hphase] using this
      · rw [if_neg h1]
        refine ⟨_, rfl, ?_, hD⟩
        exact hph .shrink s.reflected (by simp) (by simp [hphase]) (by simp) (by simp [hphase])
          (fun _ => hdom w hwm (not_lt.1 h1)) (by simp)
    | shrink =>
      simp only
      have hk : kept s = s.simplex ++ s.shrunk := by simp [kept, hphase]
      have hbest := hi.best
      have hmeas := hi.measured
      rw [hk] at hbest hmeas
      by_cases h1 : (s.shrunk ++ [(p, v)]).length = n
      · rw [if_pos h1]
        obtain ⟨f1, f2, f3, f4⟩ := foldl_insert cost (s.shrunk ++ [(p, v)]) s.simplex hne
        refine ⟨_, rfl, ?_, fun _ => ⟨by simp only; rw [f1, hlen],
          f3.trans (Dominates.of_subset (List.subset_append_left _ _))⟩⟩
        have hk' : kept { s with
            simplex := (s.shrunk ++ [(p, v)]).foldl (insert cost) s.simplex
            shrunk := [] } = (s.shrunk ++ [(p, v)]).foldl (insert cost) s.simplex := by
          simp [kept, hphase]
        rw [hphase] at hk'
        exact
          { nonempty := by simp only; rw [f1]; exact hi.nonempty
            le := by simp only; rw [f1]; exact hi.le
            building := fun h => by simp only at h; rw [f1] at h; exact absurd h hlt
            complete := fun _ => ⟨by simp [hphase], f4 hsorted⟩
            shrunk := by simp; omega
            noShrunk := fun _ => rfl
            expand := fun h => by simp [hphase] at h
            contract := fun h => by simp [hphase] at h
            best := by
              rw [hk']
              rw [← List.append_assoc] at f3
              refine f3.trans (Dominates.append (hbest.mono (List.subset_append_left _ _))
                (Dominates.of_subset (List.subset_append_right _ _)))
            measured := by
              rw [hk']
              intro x hx
              have := f2 hx
              rw [← List.append_assoc] at this
              rcases List.mem_append.1 this with hx | hx
              · exact List.mem_append_left _ (hmeas hx)
              · exact List.mem_append_right _ hx }
      · rw [if_neg h1]
        refine ⟨_, rfl, ?_, hD⟩
        have hk' : kept { s with shrunk := s.shrunk ++ [(p, v)] } =
            s.simplex ++ s.shrunk ++ [(p, v)] := by simp [kept, hphase]
        rw [hphase] at hk'
        have := hi.shrunk
        simp only [List.length_append, List.length_singleton] at h1
        exact
          { nonempty := hi.nonempty
            le := hi.le
            building := fun h => absurd h hlt
            complete := fun _ => ⟨by simp, hsorted⟩
            shrunk := by simp; omega
            noShrunk := fun h => absurd rfl h
            expand := fun h => by simp [hphase] at h
            contract := fun h => by simp [hphase] at h
            best := by
              rw [hk']
              exact Dominates.append (hbest.mono (List.subset_append_left _ _))
                (Dominates.of_subset (List.subset_append_right _ _))
            measured := by
              rw [hk']
              exact List.append_subset.2 ⟨fun x hx => List.mem_append_left _ (hmeas hx),
                List.subset_append_right _ _⟩ }

theorem Inv.update {cost : V → ℝ} {s : State n V} {h : List (Vec n × V)} (hn : n ≠ 0)
    (hi : Inv cost s h) (p : Vec n) (v : V) :
    ∃ s', NelderMead.update cost p v s = (s', .ok ()) ∧ Inv cost s' (h ++ [(p, v)]) ∧
      (s.simplex.length = n + 1 → s'.simplex.length = n + 1 ∧
        Dominates cost s'.simplex s.simplex) := by
  obtain ⟨s', hs, hinv, hd⟩ := hi.step hn p v
  refine ⟨{ s' with pos := p, vals := v }, ?_, ?_, hd⟩
  · unfold NelderMead.update
    rw [hs]
  · exact ⟨hinv.nonempty, hinv.le, hinv.building, hinv.complete, hinv.shrunk, hinv.noShrunk,
      hinv.expand, hinv.contract, hinv.best, hinv.measured⟩

theorem Run.inv {orth : Orth n} {cost : V → ℝ} {s : State n V} {h : List (Vec n × V)} (hn : n ≠ 0)
    (hr : Run orth cost s h) : Inv cost s h := by
  induction hr with
  | start span pos vals => exact inv_start hn cost span pos vals
  | suggest _ ih => exact ih.suggest orth
  | update p v _ ih =>
    obtain ⟨s', hs, hinv, -⟩ := ih.update hn p v
    rw [hs]
    exact hinv

end Qtune.NelderMead
