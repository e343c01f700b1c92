import Verif.NelderMead.Lemmas
import Verif.Gradient.FDLemmas
import Verif.Gradient.FDProps
import Mathlib.LinearAlgebra.AffineSpace.Independent

/-!
# Properties of the Nelder-Mead solver

`Run orth cost s h` (`Lemmas`): the state `s` is reached from `from_scratch` by any calls of
`suggest_next_position` and `update_after_step`, with the measurements `h`.
-/

namespace Qtune.NelderMead

open Qtune.Gradient

variable {n : Nat} {V : Type}

/-- **C32**.  In every run with at least one gate, whatever is measured and wherever: the simplex has
at most `n + 1` points, the next call of `suggest_next_position` returns a position, and the next call of
`update_after_step` does not raise. -/
theorem nelder_mead_never_raises (hn : n ≠ 0) {orth : Orth n} (ho : OrthSpec orth) {cost : V → ℝ}
    {s : State n V} {h : List (Vec n × V)} (hr : Run orth cost s h) :
    s.simplex.length ≤ n + 1 ∧ (∃ q, (suggest orth s).2 = .ok q) ∧
      ∀ p v, (update cost p v s).2 = .ok () := by
  have hi := hr.inv hn
  refine ⟨hi.le, ?_, fun p v => ?_⟩
  · obtain ⟨a, t, hat⟩ := head?_of_pos hi.nonempty
    obtain ⟨w, hw⟩ := getLast?_of_pos (l := s.simplex.map Prod.fst) (by simp; exact hi.nonempty)
    unfold suggest
    simp only [hw]
    by_cases hlt : s.simplex.length < n + 1
    · rw [if_pos hlt]
      have hps : s.simplex.map Prod.fst = a.1 :: t.map Prod.fst := by simp [hat]
      have hlen : t.length + 1 = s.simplex.length := by simp [hat]
      obtain ⟨u, hu, -⟩ := orth_finds ho (gates := List.finRange n) (List.nodup_finRange n)
        (k := t.length) (by simp; omega) (fun j => (t[j]).1 - a.1)
        ((a.1 :: t.map Prod.fst).map (· - a.1)) (by
          intro v hv
          simp only [List.map_cons, sub_self, List.mem_cons, List.mem_map] at hv
          rcases hv with hv | ⟨p, ⟨e, he, rfl⟩, rfl⟩
          · exact .inl hv
          · obtain ⟨j, hj, rfl⟩ := List.getElem_of_mem he
            exact .inr ⟨⟨j, hj⟩, 1, by simp⟩)
      simp only [hps, hu]
      exact ⟨_, rfl⟩
    · rw [if_neg hlt]
      have hlen : s.simplex.length = n + 1 := by have := hi.le; omega
      have hnb := (hi.complete hlen).1
      cases hp : s.phase with
      | buildUp => exact absurd hp hnb
      | shrink =>
        simp only
        have := hi.shrunk
        rw [if_neg (by omega)]
        have hh : (s.simplex.map Prod.fst).head? = some a.1 := by simp [hat]
        have hg : s.shrunk.length + 1 < (s.simplex.map Prod.fst).length := by simp; omega
        rw [hh, List.getElem?_eq_getElem hg]
        exact ⟨_, rfl⟩
      | startIteration => exact ⟨_, rfl⟩
      | reflect => exact ⟨_, rfl⟩
      | expand => exact ⟨_, rfl⟩
      | contractOutside => exact ⟨_, rfl⟩
      | contractInside => exact ⟨_, rfl⟩
  · obtain ⟨s', hs, -⟩ := hi.update hn p v
    rw [hs]

/-- Without gates the first call raises `RuntimeError('Bug')`: at least one gate is needed in C32. -/
theorem no_gates_bug (orth : Orth 0) (span pos : Vec 0) (vals : V) :
    (suggest orth (fromScratch span pos vals)).2 = .error bug := rfl

/-- **C33**.  From the moment at which the simplex has `n + 1` points it is sorted by cost; another
measurement keeps it complete and sorted, and the cost of its first point does not increase.
`suggest_next_position` does not change it. -/
theorem nelder_mead_best_monotone (hn : n ≠ 0) {orth : Orth n} {cost : V → ℝ} {s : State n V}
    {h : List (Vec n × V)} (hr : Run orth cost s h) (hc : s.simplex.length = n + 1) :
    Sorted cost s.simplex ∧ (suggest orth s).1.simplex = s.simplex ∧
    ∀ p v, (update cost p v s).1.simplex.length = n + 1 ∧ Sorted cost (update cost p v s).1.simplex ∧
      ∀ b b', s.simplex.head? = some b → (update cost p v s).1.simplex.head? = some b' →
        cost b'.2 ≤ cost b.2 := by
  have hi := hr.inv hn
  refine ⟨(hi.complete hc).2, ?_, fun p v => ?_⟩
  · rcases suggest_state orth s with he | ⟨-, he⟩ | ⟨-, -, he⟩ <;> rw [he]
  · obtain ⟨s', hs, hinv, hd⟩ := hi.update hn p v
    rw [hs]
    obtain ⟨hlen, hdom⟩ := hd hc
    have hsort := (hinv.complete hlen).2
    refine ⟨hlen, hsort, fun b b' hb hb' => ?_⟩
    obtain ⟨k, hk, hle⟩ := hdom b (List.mem_of_head? hb)
    simp only at hb' hsort
    rcases hl : s'.simplex with _ | ⟨a, t⟩
    · rw [hl] at hb'; cases hb'
    · rw [hl] at hb' hk hsort
      cases hb'
      rcases List.mem_cons.1 hk with rfl | hk
      · exact hle
      · exact ((List.pairwise_cons.1 hsort).1 k hk).trans hle

/-- **C81**.  No good measurement is lost: in every run, each measured point has a point that is at
least as good among those the solver remembers (the simplex, the points of a shrink in progress, and
the reflected point while the expansion is awaited), and the solver remembers only measured points. -/
theorem nelder_mead_best_kept (hn : n ≠ 0) {orth : Orth n} {cost : V → ℝ} {s : State n V}
    {h : List (Vec n × V)} (hr : Run orth cost s h) :
    (∀ e ∈ h, ∃ k, (k ∈ s.simplex ∨ k ∈ s.shrunk ∨ (s.phase = .expand ∧ s.reflected = some k)) ∧
      cost k.2 ≤ cost e.2) ∧
    ∀ k ∈ s.simplex, k ∈ h := by
  have hi := hr.inv hn
  constructor
  · intro e he
    obtain ⟨k, hk, hle⟩ := hi.best e he
    refine ⟨k, ?_, hle⟩
    unfold kept at hk
    rw [List.mem_append, List.mem_append] at hk
    rcases hk with (hk | hk) | hk
    · exact .inl hk
    · exact .inr (.inl hk)
    · by_cases hp : s.phase = .expand
      · rw [if_pos hp] at hk
        exact .inr (.inr ⟨hp, by simpa [Option.mem_def] using hk⟩)
      · rw [if_neg hp] at hk; cases hk
  · intro k hk
    exact hi.measured (by simp [kept, hk])

/-- Calls of the two methods. -/
inductive Call (n : Nat) (V : Type)
  | suggest
  | update (p : Vec n) (v : V)

/-- The state after some calls. -/
noncomputable def calls (orth : Orth n) (cost : V → ℝ) : List (Call n V) → State n V → State n V
  | [], s => s
  | .suggest :: cs, s => calls orth cost cs (suggest orth s).1
  | .update p v :: cs, s => calls orth cost cs (update cost p v s).1

theorem Run.calls {orth : Orth n} {cost : V → ℝ} {s : State n V} {h : List (Vec n × V)}
    (hr : Run orth cost s h) (cs : List (Call n V)) : ∃ h', Run orth cost (NelderMead.calls orth cost cs s) h' := by
  induction cs generalizing s h with
  | nil => exact ⟨h, hr⟩
  | cons c cs ih =>
    cases c with
    | suggest => exact ih hr.suggest
    | update p v => exact ih (hr.update p v)

/-- The solver has left the reflections. -/
def Left (p : Phase) : Prop := p = .expand ∨ p = .contractOutside ∨ p = .contractInside ∨ p = .shrink

theorem step_left (cost : V → ℝ) (p : Vec n) (v : V) (s : State n V) (hc : ¬ s.simplex.length < n + 1)
    (hl : Left s.phase) : Left (step cost p v s).1.phase ∧
      ((s.phase = .expand → (step cost p v s).1.phase = .expand) ∧
      (s.phase = .shrink → (step cost p v s).1.phase = .shrink)) := by
  unfold step
  simp only [if_neg hc]
  rcases hl with hp | hp | hp | hp
  · simp only [hp]
    split
    · simp [hp, Left]
    · split <;> simp [Left, hp]
  · simp only [hp]
    split
    · simp [hp, Left]
    · split <;> simp [Left, hp]
  · simp only [hp]
    split
    · simp [hp, Left]
    · split <;> simp [Left, hp]
  · simp only [hp]
    split <;> simp [Left, hp]

theorem update_phase (cost : V → ℝ) (p : Vec n) (v : V) (s : State n V) :
    (update cost p v s).1.phase = (step cost p v s).1.phase := by
  unfold update
  rcases h : step cost p v s with ⟨s', _ | _⟩ <;> rfl

theorem left_forever (hn : n ≠ 0) {orth : Orth n} {cost : V → ℝ} {s : State n V}
    {h : List (Vec n × V)} (hr : Run orth cost s h) (hl : Left s.phase) (cs : List (Call n V)) :
    Left (calls orth cost cs s).phase ∧
      (s.phase = .expand → (calls orth cost cs s).phase = .expand) ∧
      (s.phase = .shrink → (calls orth cost cs s).phase = .shrink) := by
  have key : ∀ (cs : List (Call n V)) (s : State n V) (h : List (Vec n × V)), Run orth cost s h →
      Left s.phase → Left (calls orth cost cs s).phase ∧
      (s.phase = .expand → (calls orth cost cs s).phase = .expand) ∧
      (s.phase = .shrink → (calls orth cost cs s).phase = .shrink) := by
    intro cs
    induction cs with
    | nil => intro s h _ hl; exact ⟨hl, fun h => h, fun h => h⟩
    | cons c cs ih =>
      intro s h hr hl
      have hi := hr.inv hn
      have hc : ¬ s.simplex.length < n + 1 := fun hlt => by
        have := hi.building hlt
        rw [this] at hl
        rcases hl with h | h | h | h <;> cases h
      cases c with
      | suggest =>
        have he : (suggest orth s).1 = s := by
          rcases suggest_state orth s with he | ⟨hlt, _⟩ | ⟨_, hp, _⟩
          · exact he
          · exact absurd hlt hc
          · exfalso
            rcases hp with hp | hp <;> rw [hp] at hl <;> rcases hl with h | h | h | h <;> cases h
        have := ih (suggest orth s).1 h hr.suggest (by rw [he]; exact hl)
        rw [he] at this
        unfold calls
        rw [he]
        exact this
      | update p v =>
        obtain ⟨h1, h2, h3⟩ := step_left cost p v s hc hl
        rw [← update_phase] at h1 h2 h3
        obtain ⟨i1, i2, i3⟩ := ih _ _ (hr.update p v) h1
        exact ⟨i1, fun hp => i2 (h2 hp), fun hp => i3 (h3 hp)⟩
  exact key cs s h hr hl

/-- **C34** is false in every run: once the solver has left the reflections for an expansion, a
contraction or a shrink it never reflects again, whatever is measured afterwards; an expansion is
followed by expansions only, a shrink by shrinks only.  (`left_reachable_refuted` is a run that gets
there.) -/
theorem back_to_reflection_refuted (hn : n ≠ 0) {orth : Orth n} {cost : V → ℝ} {s : State n V}
    {h : List (Vec n × V)} (hr : Run orth cost s h)
    (hl : s.phase = .expand ∨ s.phase = .contractOutside ∨ s.phase = .contractInside ∨
      s.phase = .shrink) (cs : List (Call n V)) :
    (calls orth cost cs s).phase ≠ .reflect ∧
      (s.phase = .expand → (calls orth cost cs s).phase = .expand) ∧
      (s.phase = .shrink → (calls orth cost cs s).phase = .shrink) := by
  obtain ⟨h1, h2⟩ := left_forever hn hr hl cs
  refine ⟨fun h => ?_, h2⟩
  rw [h] at h1
  rcases h1 with h | h | h | h <;> cases h

/-- A run with one gate in which the reflected point is better than all others. -/
noncomputable def improving (orth : Orth 1) : State 1 ℝ :=
  calls orth (fun v : ℝ => v * v)
    [.suggest, .update (fun _ => 1) 2, .suggest, .update (fun _ => 2) 0]
    (fromScratch (fun _ => 1) (fun _ => 0) 3)

theorem left_reachable_refuted (orth : Orth 1) (ho : OrthSpec orth) :
    (∃ h, Run orth (fun v : ℝ => v * v) (improving orth) h) ∧ (improving orth).phase = .expand := by
  refine ⟨(Run.start _ _ _).calls _, ?_⟩
  have h1 : (suggest orth (fromScratch (fun _ => 1) (fun _ => 0) (3 : ℝ))).1 =
      fromScratch (fun _ => 1) (fun _ => 0) 3 := by
    rcases suggest_state orth (fromScratch (fun _ => 1) (fun _ => 0) (3 : ℝ)) with h | ⟨-, h⟩ | ⟨h, -⟩
    · exact h
    · exact h
    · exact absurd (by simp [fromScratch]) h
  have hsort : sortByCost (n := 1) (fun v : ℝ => v * v) [(fun _ => 0, 3), (fun _ => 1, 2)] =
      [(fun _ => 1, 2), (fun _ => 0, 3)] := by
    unfold sortByCost
    simp [List.mergeSort, List.MergeSort.Internal.splitInTwo]
    norm_num [List.merge]
  unfold improving
  simp only [calls, h1]
  simp [update, step, fromScratch, hsort, suggest]

/-- **C34**, the case in which it holds: an iteration that ends with accepting the reflected point, and
the first iteration.  Then the solver reflects the worst point `w` next: it suggests `2 * m - w` where `m`
is the mean of the simplex.
Missing: the iterations that end with an expansion, a contraction or a shrink, see
`back_to_reflection_refuted`. -/
theorem back_to_reflection_partial {orth : Orth n} {cost : V → ℝ} {s : State n V} (hn : n ≠ 0)
    (hc : s.simplex.length = n + 1) (w : Vec n × V) :
    (s.phase = .startIteration ∨ s.phase = .reflect → s.simplex.getLast? = some w →
      (suggest orth s).2 = .ok ((2 : ℝ) • mean (s.simplex.map Prod.fst) - w.1)) ∧
    (s.phase = .reflect → ∀ (b w₂ : Vec n × V) (p : Vec n) (v : V), s.simplex.head? = some b →
      s.simplex.dropLast.getLast? = some w₂ → cost b.2 ≤ cost v → cost v < cost w₂.2 →
      (update cost p v s).1.phase = .reflect ∧ (update cost p v s).1.simplex.length = n + 1) := by
  constructor
  · intro hp hw
    unfold suggest
    have : (s.simplex.map Prod.fst).getLast? = some w.1 := by simp [hw]
    simp only [this]
    rw [if_neg (by omega)]
    rcases hp with hp | hp <;> simp only [hp]
  · intro hp b w₂ p v hb hw₂ h1 h2
    have hh : (s.simplex.map fun e => cost e.2).head? = some (cost b.2) := by simp [hb]
    have hh₂ : (s.simplex.map fun e => cost e.2).dropLast.getLast? = some (cost w₂.2) := by
      rw [show (s.simplex.map fun e => cost e.2).dropLast = s.simplex.dropLast.map fun e => cost e.2
        from List.map_dropLast.symm, List.getLast?_map, hw₂]
      rfl
    obtain ⟨w, hw⟩ := getLast?_of_pos (l := s.simplex.map fun e => cost e.2) (by simp; omega)
    have hstep : step cost p v s = ({ s with
        simplex := insert cost s.simplex (p, v)
        reflected := some (p, v) }, .ok ()) := by
      unfold step
      rw [if_neg (by omega)]
      simp only [hp, hh, hh₂, hw]
      rw [if_neg (not_lt.2 h1), if_neg (not_le.2 h2)]
    unfold update
    rw [hstep]
    exact ⟨hp, by simp only; rw [insert_length, hc]⟩

/-- **C35** is false: a tuner with a Nelder-Mead solver gets a `TypeError` instead of the next
voltages whenever the last evaluation was successful, and the reconstruction from the stored data
raises `ValueError` in every state. -/
theorem nelder_mead_use_and_reload_refuted (target : Target) (cost : V → ℝ) (toVals : Series → V)
    (tuned : List String) (t : Tuner.SubsetTuner (State n V) (Fin n)) (ht : t.lastFailed = false)
    (s : State n V) :
    (Tuner.nextVoltages (solver target cost toVals) tuned t).2 = .error .typeError ∧
    reload s = .error .valueError := by
  constructor
  · unfold Tuner.nextVoltages
    rw [if_neg (by simp [ht])]
    rfl
  · unfold reload new
    cases s.phase <;> rfl

/-- **C82** is false: the reflected point is not the mirror image `c + (c - w)` of the worst point `w`
in the centroid `c` of the other points, but lies closer to `c`, by the factor `(n - 1) / (n + 1)`.  With
one gate it is `c`, the best point, itself. -/
theorem mirror_image_refuted {orth : Orth n} {s : State n V} (hn : n ≠ 0)
    (hc : s.simplex.length = n + 1) (hp : s.phase = .startIteration ∨ s.phase = .reflect)
    (w : Vec n × V) (hw : s.simplex.getLast? = some w) (c : Vec n)
    (hcen : c = fun i => (s.simplex.dropLast.map fun e => e.1 i).sum / n) :
    (suggest orth s).2 = .ok (c + (((n : ℝ) - 1) / (n + 1)) • (c - w.1)) ∧
    (c ≠ w.1 → (suggest orth s).2 ≠ .ok (c + (c - w.1))) := by
  have hn' : (n : ℝ) ≠ 0 := by exact_mod_cast hn
  have hn1 : (n : ℝ) + 1 ≠ 0 := by positivity
  have hsplit : s.simplex = s.simplex.dropLast ++ [w] := by
    conv_lhs => rw [← List.dropLast_append_getLast? w hw]
  have hmean : mean (s.simplex.map Prod.fst) = fun i => ((n : ℝ) * c i + w.1 i) / (n + 1) := by
    funext i
    unfold mean
    have h1 : ((s.simplex.map Prod.fst).map (· i)).sum =
        (s.simplex.dropLast.map fun e => e.1 i).sum + w.1 i := by
      conv_lhs => rw [hsplit]
      simp [List.map_append, List.sum_append, Function.comp_def]
    rw [h1, hcen]
    simp only [List.length_map, hc]
    push_cast
    field_simp
  have h1 : (suggest orth s).2 = .ok (c + (((n : ℝ) - 1) / (n + 1)) • (c - w.1)) := by
    rw [(back_to_reflection_partial (cost := fun _ : V => 0) hn hc w).1 hp hw]
    congr 1
    funext i
    simp only [Pi.add_apply, Pi.sub_apply, Pi.smul_apply, smul_eq_mul, hmean]
    field_simp
    ring
  refine ⟨h1, fun hne h2 => hne ?_⟩
  rw [h1] at h2
  injection h2 with h2
  funext i
  have := congrFun h2 i
  simp only [Pi.add_apply, Pi.sub_apply, Pi.smul_apply, smul_eq_mul] at this
  have h3 : (((n : ℝ) - 1) / (n + 1) - 1) * (c i - w.1 i) = 0 := by linarith
  rcases mul_eq_zero.1 h3 with h | h
  · exfalso
    rw [sub_eq_zero, div_eq_iff hn1] at h
    linarith
  · linarith

/-! ### Build-up of the simplex -/

/-- The first `k` measurements at the suggested positions, with the measured values `vals`. -/
noncomputable def follow (orth : Orth n) (cost : V → ℝ) : List V → State n V → Except PyErr (State n V)
  | [], s => .ok s
  | v :: vs, s =>
    match suggest orth s with
    | (_, .error e) => .error e
    | (s, .ok q) =>
      match update cost q v s with
      | (_, .error e) => .error e
      | (s, .ok ()) => follow orth cost vs s

theorem general_position {k : Nat} {d : Fin k → Vec n} (hd : LinearIndependent ℝ d) (pos : Vec n)
    {l : List (Vec n)} (hl : l.Perm (pos :: List.ofFn fun j => pos + d j)) :
    l.Nodup ∧ AffineIndependent ℝ (Subtype.val : {p // p ∈ l} → Vec n) := by
  constructor
  · rw [hl.nodup_iff, List.nodup_cons, List.nodup_ofFn]
    refine ⟨?_, fun a b h => hd.injective (add_left_cancel h)⟩
    rw [List.mem_ofFn']
    rintro ⟨j, hj⟩
    exact hd.ne_zero j (by simpa using hj)
  · have h1 := (linearIndependent_set_iff_affineIndependent_vadd_union_singleton ℝ
      (s := Set.range d) (by rintro _ ⟨j, rfl⟩; exact hd.ne_zero j) pos).1 hd.linearIndepOn_id
    have h2 : ({pos} ∪ (fun v => v +ᵥ pos) '' Set.range d : Set (Vec n)) = {p | p ∈ l} := by
      ext p
      rw [Set.mem_setOf_eq, hl.mem_iff, List.mem_cons, List.mem_ofFn']
      simp only [Set.singleton_union, Set.mem_insert_iff, Set.mem_image, Set.mem_range,
        exists_exists_eq_and, vadd_eq_add]
      refine or_congr Iff.rfl ⟨?_, ?_⟩
      · rintro ⟨j, rfl⟩; exact ⟨j, add_comm _ _⟩
      · rintro ⟨j, rfl⟩; exact ⟨j, add_comm _ _⟩
    rw [h2] at h1
    exact h1

theorem build_up (hn : n ≠ 0) {orth : Orth n} (ho : OrthSpec orth) (cost : V → ℝ)
    (span pos : Vec n) (hspan : ∀ i, 0 < span i) (vals : List V) :
    ∀ (k : Nat) (_ : k + vals.length = n) (_ : vals ≠ []) (d : Fin k → Vec n)
      (_ : LinearIndependent ℝ d) (s : State n V), s.span = span → s.phase = .buildUp →
      s.simplex.map Prod.fst = (pos :: List.ofFn fun j => pos + d j) →
    ∃ s', follow orth cost vals s = .ok s' ∧ s'.simplex.length = n + 1 ∧
      ∃ d' : Fin n → Vec n, LinearIndependent ℝ d' ∧
        (s'.simplex.map Prod.fst).Perm (pos :: List.ofFn fun j => pos + d' j) := by
  induction vals with
  | nil => intro k _ h; exact absurd rfl h
  | cons v vals ih =>
    intro k hk _ d hd s hspan' hph hs
    have hkn : k < n := by simp at hk; omega
    have hlen : s.simplex.length = k + 1 := by
      have := congrArg List.length hs
      simpa using this
    obtain ⟨u, hu, hu1, -, hort⟩ := orth_finds ho (gates := List.finRange n) (List.nodup_finRange n)
      (k := k) (by simpa using hkn) d ((pos :: List.ofFn fun j => pos + d j).map (· - pos)) (by
        intro v hv
        simp only [List.map_cons, sub_self, List.mem_cons, List.mem_map, List.mem_ofFn'] at hv
        rcases hv with hv | ⟨p, ⟨j, rfl⟩, rfl⟩
        · exact .inl hv
        · exact .inr ⟨j, 1, by simp⟩)
    have hort' : ∀ j, inner u (d j) = 0 := fun j => hort _ (by
      simp only [List.map_cons, List.mem_cons, List.mem_map, List.mem_ofFn']
      exact .inr ⟨pos + d j, ⟨j, rfl⟩, by simp⟩)
    have hind := independent_snoc hd hspan hu1 hort'
    obtain ⟨w, hw⟩ := getLast?_of_pos (l := (pos :: List.ofFn fun j => pos + d j)) (by simp)
    have hsug : suggest orth s = (s, .ok (pos + scaled u span)) := by
      unfold suggest
      simp only [hs, hw]
      rw [if_pos (by omega), hu]
      simp only [hspan']
      congr 1
      cases s
      simp only at hph hspan'
      subst hph hspan'
      rfl
    have hpos' : ∀ l : List (Vec n × V), l = s.simplex ++ [(pos + scaled u span, v)] →
        l.map Prod.fst = pos :: List.ofFn fun j =>
          pos + (Fin.snoc d (scaled u span) : Fin (k + 1) → Vec n) j := by
      rintro l rfl
      rw [List.map_append, hs]
      have : (fun j : Fin (k + 1) => pos + (Fin.snoc d (scaled u span) : Fin (k + 1) → Vec n) j) =
          Fin.snoc (fun j => pos + d j) (pos + scaled u span) := by
        funext j
        refine Fin.lastCases ?_ (fun j => ?_) j <;> simp
      rw [this, ofFn_snoc]
      simp
    unfold follow
    rw [hsug]
    simp only
    by_cases hv : vals = []
    · subst hv
      have hk1 : k + 1 = n := by simpa using hk
      subst hk1
      have hstep : update cost (pos + scaled u span) v s = ({ s with
          simplex := sortByCost cost (s.simplex ++ [(pos + scaled u span, v)])
          phase := .startIteration
          pos := pos + scaled u span
          vals := v }, .ok ()) := by
        unfold update step
        rw [if_pos (by omega)]
        simp only
        rw [if_pos (by simp [hlen])]
      rw [hstep]
      refine ⟨_, rfl, ?_, _, hind, ?_⟩
      · simp only
        rw [(sortByCost_perm cost _).length_eq]
        simp [hlen]
      · rw [← hpos' _ rfl]
        exact (sortByCost_perm cost _).map _
    · have hk2 : k + 1 < n := by
        have := List.length_pos_of_ne_nil hv
        simp at hk
        omega
      have hstep : update cost (pos + scaled u span) v s = ({ s with
          simplex := s.simplex ++ [(pos + scaled u span, v)]
          pos := pos + scaled u span
          vals := v }, .ok ()) := by
        unfold update step
        rw [if_pos (by omega)]
        simp only
        rw [if_neg (by simp [hlen]; omega)]
      rw [hstep]
      exact ih (k + 1) (by simp at hk; omega) hv _ hind _ hspan' hph (hpos' _ rfl)

/-- **C83**.  If the user follows the suggestions and the span has positive entries, the first `n`
measurements together with the initial point give a simplex with `n + 1` points in general position:
the positions are affinely independent. -/
theorem build_up_general_position (hn : n ≠ 0) {orth : Orth n} (ho : OrthSpec orth) (cost : V → ℝ)
    (span pos : Vec n) (hspan : ∀ i, 0 < span i) (v₀ : V) (vals : List V) (hlen : vals.length = n) :
    ∃ s, follow orth cost vals (fromScratch span pos v₀) = .ok s ∧ s.simplex.length = n + 1 ∧
      (s.simplex.map Prod.fst).Nodup ∧
      AffineIndependent ℝ (Subtype.val : {p // p ∈ s.simplex.map Prod.fst} → Vec n) := by
  obtain ⟨s, hs, hl, d, hd, hperm⟩ := build_up hn ho cost span pos hspan vals 0 (by omega)
    (by rintro rfl; exact hn hlen.symm) (fun j : Fin 0 => (j.elim0 : Vec n)) linearIndependent_empty_type
    (fromScratch span pos v₀) rfl rfl (by simp [fromScratch])
  exact ⟨s, hs, hl, general_position hd pos hperm⟩

/-! ### Cases that meet the hypotheses -/

/-- A run with two gates whose simplex is complete and sorted. -/
example (orth : Orth 2) (cost : ℝ → ℝ) : ∃ s h, Run orth cost s h ∧ s.simplex.length = 2 + 1 ∧
    h = [(fun _ => 0, 3), (fun _ => 1, 2), (fun _ => 5, 7)] := by
  refine ⟨_, _, ((Run.start (fun _ => 1) (fun _ => 0) 3).update (fun _ => 1) 2).update (fun _ => 5) 7,
    ?_, rfl⟩
  simp [update, step, fromScratch, (sortByCost_perm cost _).length_eq]

example : ∃ orth : Orth 3, OrthSpec orth := exists_orth 3

/-- A simplex of which the mean of the better points differs from the worst point. -/
example : let s : State 1 ℝ := ⟨[(fun _ => 1, 2), (fun _ => 0, 3)], 0, 3, fun _ => 1, .reflect, none, []⟩
    s.simplex.length = 1 + 1 ∧ s.simplex.getLast? = some (fun _ => 0, 3) ∧
    (fun i => (s.simplex.dropLast.map fun e => e.1 i).sum / (1 : ℕ)) ≠ (fun _ => 0 : Vec 1) := by
  refine ⟨rfl, rfl, fun h => ?_⟩
  have := congrFun h 0
  simp at this

end Qtune.NelderMead
