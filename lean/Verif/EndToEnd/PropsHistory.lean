import Verif.EndToEnd.PropsScratch
import Verif.History.GapProps

/-!
# The history of a tuning with fresh finite difference estimators

`History` and the hierarchy of tuners with Newton solvers are put together.
-/

namespace Qtune.EndToEnd

open Qtune.Tuner Qtune.Gradient Qtune.Autotuner Qtune.History

variable {n : Nat}

/-! ### Helper lemmas -/

/-- Every estimator has no gradient yet and at most `k` measurements. -/
def Few (k : Nat) (es : List (FD n)) : Prop := ∀ e ∈ es, e.estimate = none ∧ e.stored.length ≤ k

theorem Few.mono {k k' : Nat} {es : List (FD n)} (h : Few k es) (hk : k ≤ k') : Few k' es :=
  fun e he => ⟨(h e he).1, (h e he).2.trans hk⟩

theorem few_update {k : Nat} (hk : k < n) {p : Vec n} {v s : Val} {e : FD n} (h1 : e.estimate = none)
    (h2 : e.stored.length ≤ k) :
    (e.update p v s).1.estimate = none ∧ (e.update p v s).1.stored.length ≤ k + 1 := by
  unfold FD.update
  cases hp : e.pos with
  | none =>
    refine ⟨h1, ?_⟩
    dsimp only
    split
    · omega
    · simp only [List.length_append, List.length_singleton]; omega
  | some c =>
    dsimp only
    rw [h1]
    dsimp only
    simp only [List.length_append, List.length_singleton]
    rw [if_neg (by omega), if_neg (by omega)]
    exact ⟨rfl, by simp only [List.length_append, List.length_singleton]; omega⟩

theorem few_require {k : Nat} {orth : Orth n} {gates : List (Fin n)} {e : FD n} (h1 : e.estimate = none)
    (h2 : e.stored.length ≤ k) :
    (e.require orth gates).1.estimate = none ∧ (e.require orth gates).1.stored.length ≤ k := by
  unfold FD.require
  cases e.pos with
  | none => exact ⟨h1, h2⟩
  | some c =>
    dsimp only
    rw [h1]
    dsimp only
    split
    · exact ⟨h1, h2⟩
    · exact ⟨rfl, h2⟩

theorem few_feed {orth : Orth n} {T : Target} {v : Volt (Fin n)} {k : Nat} (hk : k < n) :
    ∀ (es : List (FD n)) (xs : Series) (ss : List Val), Few k es →
      Few (k + 1) (Newton.feed (fdI orth) T v es xs ss).1 := by
  intro es
  induction es with
  | nil => intro xs ss h; unfold Newton.feed; exact h.mono (by omega)
  | cons e es ih =>
    intro xs ss h
    have he := h e (by simp)
    have hes : Few k es := fun e' he' => h e' (by simp [he'])
    have hup := fun x y => few_update (p := fun i => (v i).getD 0) (v := x) (s := y) hk he.1 he.2
    rcases xs with _ | ⟨⟨l, x⟩, xs⟩
    · unfold Newton.feed; exact h.mono (by omega)
    · rcases ss with _ | ⟨y, ss⟩
      · unfold Newton.feed; exact h.mono (by omega)
      · unfold Newton.feed
        split
        · exact h.mono (by omega)
        · split
          · intro e' he'
            rcases List.mem_cons.1 he' with rfl | he'
            · exact ⟨he.1, by omega⟩
            · exact ih xs ss hes e' he'
          · split
            · rename_i e₁ err hu
              have : e₁ = (e.update (fun i => (v i).getD 0) x y).1 := (congrArg Prod.fst hu).symm
              intro e' he'
              rcases List.mem_cons.1 he' with rfl | he'
              · rw [this]; exact hup _ _
              · exact (hes.mono (Nat.le_succ k)) e' he'
            · rename_i e₁ hu
              have : e₁ = (e.update (fun i => (v i).getD 0) x y).1 := (congrArg Prod.fst hu).symm
              intro e' he'
              rcases List.mem_cons.1 he' with rfl | he'
              · rw [this]; exact hup _ _
              · exact ih xs ss hes e' he'

theorem few_ask {orth : Orth n} {gates : List (Fin n)} {tj : Option (List (Fin n → Val))} {k : Nat} :
    ∀ (l : List (Row × FD n)), Few k (l.map Prod.snd) → Few k (Newton.ask (fdI orth) gates tj l).1 := by
  intro l
  induction l with
  | nil => intro _ e he; simp [Newton.ask] at he
  | cons re l ih =>
    obtain ⟨r, e⟩ := re
    intro h
    have he := h e (by simp)
    have hes : Few k (l.map Prod.snd) := fun e' he' => h e' (by simp only [List.map_cons, List.mem_cons]; exact Or.inr he')
    have hreq := few_require (orth := orth) (gates := gates) he.1 he.2
    have cons : ∀ {e₀ : FD n} {es : List (FD n)}, (e₀.estimate = none ∧ e₀.stored.length ≤ k) → Few k es →
        Few k (e₀ :: es) := by
      intro e₀ es h0 h1 e' he'
      rcases List.mem_cons.1 he' with rfl | he'
      · exact h0
      · exact h1 e' he'
    unfold Newton.ask
    split
    · exact cons he (ih hes)
    · split
      · rename_i e₁ err hu
        have : e₁ = (e.require orth gates).1 := (congrArg Prod.fst hu).symm
        exact cons (this ▸ hreq) hes
      · rename_i e₁ sug hu
        have : e₁ = (e.require orth gates).1 := (congrArg Prod.fst hu).symm
        split
        · split
          · exact cons (this ▸ hreq) hes
          · exact cons (this ▸ hreq) (ih hes)
        · exact cons (this ▸ hreq) (ih hes)

theorem few_suggest {orth : Orth n} {lstsq : Newton.Lstsq (Fin n)} {tuned : List String} {k : Nat}
    {s : Newton.State (FD n) (Fin n)} (hlen : s.target.length = s.ests.length) (h : Few k s.ests) :
    Few k (Newton.suggest (fdI orth) lstsq tuned s).1.ests ∧
      (Newton.suggest (fdI orth) lstsq tuned s).1.target = s.target := by
  have hz : (s.target.zip s.ests).map Prod.snd = s.ests := by
    rw [List.map_snd_zip]; exact hlen.symm.le
  have key := fun tj => few_ask (orth := orth) (gates := s.gates) (tj := tj) (s.target.zip s.ests) (by rw [hz]; exact h)
  unfold Newton.suggest
  split
  · exact ⟨h, rfl⟩
  · rename_i tj _
    have := key tj
    split
    · rename_i es err ha
      rw [ha] at this
      exact ⟨this, rfl⟩
    · rename_i es p ha
      rw [ha] at this
      exact ⟨this, rfl⟩
    · rename_i es ha
      rw [ha] at this
      split
      · exact ⟨this, rfl⟩
      · exact ⟨this, rfl⟩

theorem ask_length {X ι : Type} {I : Newton.EstI X ι} {gates : List ι} {tj : Option (List (ι → Val))} :
    ∀ l : List (Row × X), (Newton.ask I gates tj l).1.length = l.length := by
  intro l
  induction l with
  | nil => rfl
  | cons re l ih =>
    obtain ⟨r, e⟩ := re
    unfold Newton.ask
    split
    · simp [ih]
    · split
      · simp
      · split
        · split
          · simp
          · simp [ih]
        · simp [ih]

theorem feed_length {X ι : Type} {I : Newton.EstI X ι} {T : Target} {v : Volt ι} :
    ∀ (es : List X) (xs : Series) (ss : List Val), (Newton.feed I T v es xs ss).1.length = es.length := by
  intro es
  induction es with
  | nil => intro xs ss; unfold Newton.feed; rfl
  | cons e es ih =>
    intro xs ss
    rcases xs with _ | ⟨⟨l, x⟩, xs⟩
    · unfold Newton.feed; rfl
    · rcases ss with _ | ⟨y, ss⟩
      · unfold Newton.feed; rfl
      · unfold Newton.feed
        split
        · rfl
        · split
          · simp [ih]
          · split
            · simp
            · simp [ih]

/-- Estimators of a solver: fresh enough, and one for each row of the target. -/
def FewSolver (k : Nat) (s : Newton.State (FD n) (Fin n)) : Prop := s.target.length = s.ests.length ∧ Few k s.ests

theorem eq_fst {A : Type} {P : A → Prop} {a b : A} (h : a = b) (ha : P a) : P b := h ▸ ha

theorem few_isTuned {orth : Orth n} {lstsq : Newton.Lstsq (Fin n)} {k : Nat} (hk : k < n) (outs : List Outcome)
    (v : Volt (Fin n)) (t : OneTuner (FD n) n) (h : FewSolver k t.solver) :
    FewSolver (k + 1) (isTuned (Newton.solver (fdI orth) lstsq) outs v t).1.solver ∧
      (isTuned (Newton.solver (fdI orth) lstsq) outs v t).1.solver.target = t.solver.target := by
  have h' : FewSolver (k + 1) t.solver := ⟨h.1, h.2.mono (by omega)⟩
  have hupd : ∀ (p vars : Series), FewSolver (k + 1) (Newton.update (fdI orth) v p vars t.solver).1 ∧
      (Newton.update (fdI orth) v p vars t.solver).1.target = t.solver.target := by
    intro p vars
    unfold Newton.update
    split
    · exact ⟨h', rfl⟩
    · rename_i vals _
      have hf := few_feed (orth := orth) (T := t.solver.target) (v := v) hk t.solver.ests vals (vars.map Prod.snd) h.2
      have hl := feed_length (I := fdI orth) (T := t.solver.target) (v := v) t.solver.ests vals (vars.map Prod.snd)
      split
      · rename_i es e hfe
        rw [hfe] at hf hl
        exact ⟨⟨h.1.trans hl.symm, hf⟩, rfl⟩
      · rename_i es hfe
        rw [hfe] at hf hl
        exact ⟨⟨h.1.trans hl.symm, hf⟩, rfl⟩
  unfold isTuned
  dsimp only
  split
  · exact ⟨h', rfl⟩
  · split
    · exact ⟨h', rfl⟩
    · split
      · exact ⟨h', rfl⟩
      · split
        · exact ⟨h', rfl⟩
        · split
          · exact ⟨h', rfl⟩
          · split
            · rename_i s e hs
              have h2 := congrArg Prod.fst hs
              have h3 : FewSolver (k + 1) s ∧ s.target = t.solver.target := by
                exact eq_fst (P := fun x => FewSolver (k + 1) x ∧ x.target = t.solver.target) h2 (hupd _ _)
              exact h3
            · rename_i s hs
              have h2 := congrArg Prod.fst hs
              have h3 : FewSolver (k + 1) s ∧ s.target = t.solver.target := by
                exact eq_fst (P := fun x => FewSolver (k + 1) x ∧ x.target = t.solver.target) h2 (hupd _ _)
              split
              · exact h3
              · exact h3

theorem few_nextVoltages {orth : Orth n} {lstsq : Newton.Lstsq (Fin n)} {k : Nat} (tuned : List String)
    (t : OneTuner (FD n) n) (h : FewSolver k t.solver) :
    FewSolver k (nextVoltages (Newton.solver (fdI orth) lstsq) tuned t).1.solver ∧
      (nextVoltages (Newton.solver (fdI orth) lstsq) tuned t).1.solver.target = t.solver.target := by
  obtain ⟨h1, h2⟩ := few_suggest (orth := orth) (lstsq := lstsq) (tuned := tuned) h.1 h.2
  have hl : (Newton.suggest (fdI orth) lstsq tuned t.solver).1.target.length =
      (Newton.suggest (fdI orth) lstsq tuned t.solver).1.ests.length := by
    rw [h2]
    unfold Newton.suggest
    split
    · exact h.1
    · rename_i tj _
      have := ask_length (I := fdI orth) (gates := t.solver.gates) (tj := tj) (t.solver.target.zip t.solver.ests)
      rw [List.length_zip, ← h.1, Nat.min_self] at this
      split
      · rename_i ha; rw [ha] at this; exact this.symm
      · rename_i ha; rw [ha] at this; exact this.symm
      · rename_i ha
        rw [ha] at this
        split
        · exact this.symm
        · exact this.symm
  unfold nextVoltages
  split
  · split
    · exact ⟨h, rfl⟩
    · exact ⟨h, rfl⟩
  · split
    · rename_i s e hs
      have h3 : (Newton.suggest (fdI orth) lstsq tuned t.solver).1 = s := congrArg Prod.fst hs
      subst h3
      exact ⟨⟨hl, h1⟩, h2⟩
    · rename_i s sug hs
      have h3 : (Newton.suggest (fdI orth) lstsq tuned t.solver).1 = s := congrArg Prod.fst hs
      subst h3
      dsimp only
      split
      · exact ⟨⟨hl, h1⟩, h2⟩
      · exact ⟨⟨hl, h1⟩, h2⟩

/-- A hierarchy whose solvers have estimators with at most `k` measurements. -/
def FewShared (L k : Nat) (w : Shared (FD n) n) : Prop :=
  (∀ i, (w.tuners i).solver.target.length = L) ∧ w.ests.length = L ∧ Few k w.ests

theorem FewShared.put {L k k' : Nat} {w : Shared (FD n) n} (h : FewShared L k w) (i : Nat) {t : OneTuner (FD n) n}
    (h1 : FewSolver k' t.solver) (h2 : t.solver.target = (w.tuners i).solver.target) : FewShared L k' (w.put i t) := by
  refine ⟨fun j => ?_, ?_, h1.2⟩
  · show (Function.update w.tuners i t j).solver.target.length = L
    by_cases hj : j = i
    · subst hj
      rw [Function.update_self, h2]
      exact h.1 j
    · rw [Function.update_of_ne hj]
      exact h.1 j
  · show t.solver.ests.length = L
    rw [← h1.1, h2]
    exact h.1 i

theorem few_iterate {orth : Orth n} {lstsq : Newton.Lstsq (Fin n)} {K : Nat} {outs : Nat → Volt (Fin n) → List Outcome}
    {L k : Nat} (hk : k < n) {s : Autotuner.State (Shared (FD n) n) (Volt (Fin n)) (Volt (Fin n))}
    (h : FewShared L k s.tuners) :
    FewShared L (k + 1) (Autotuner.iterate (multiHierarchy (fdI orth) lstsq K outs) (.ok ()) s).1.tuners := by
  have h' : FewShared L (k + 1) s.tuners := ⟨h.1, h.2.1, h.2.2.mono (by omega)⟩
  have hev : ∀ i v x, FewShared L (k + 1) ((multiHierarchy (fdI orth) lstsq K outs).isTuned i v s.tuners x).1.1 := by
    intro i v x
    have := few_isTuned (orth := orth) (lstsq := lstsq) hk (outs i x) v (s.tuners.get i) ⟨(h.1 i).trans h.2.1.symm, h.2.2⟩
    exact h.put i this.1 this.2
  have hsu : ∀ i p, FewShared L (k + 1) ((multiHierarchy (fdI orth) lstsq K outs).nextVolt i p s.tuners).1 := by
    intro i p
    have := few_nextVoltages (orth := orth) (lstsq := lstsq) p (s.tuners.get i) ⟨(h.1 i).trans h.2.1.symm, h.2.2⟩
    exact h.put i ⟨this.1.1, this.1.2.mono (by omega)⟩ this.2
  unfold Autotuner.iterate
  split
  · exact h'
  · exact h'
  · split
    · exact h'
    · split
      · split
        · exact h'
        · split
          · exact h'
          · exact h'
      · split
        · exact h'
        · split
          · split
            · rename_i w x e ht; have := hev s.index ((multiHierarchy (fdI orth) lstsq K outs).read s.expt) s.expt; rw [ht] at this; exact this
            · rename_i w x ht; have := hev s.index ((multiHierarchy (fdI orth) lstsq K outs).read s.expt) s.expt; rw [ht] at this; exact this
            · rename_i w x ht; have := hev s.index ((multiHierarchy (fdI orth) lstsq K outs).read s.expt) s.expt; rw [ht] at this; exact this
          · split
            · rename_i w e ht; have := hsu s.index ((multiHierarchy (fdI orth) lstsq K outs).tunedParams s.tuners s.index); rw [ht] at this; exact this
            · rename_i w v ht; have := hsu s.index ((multiHierarchy (fdI orth) lstsq K outs).tunedParams s.tuners s.index); rw [ht] at this; exact this

/-! ### Theorem -/

/-- The history can read the gradients of a tuner. -/
def gradientsKnown (w : Shared (FD n) n) (_ : Nat) : Bool := w.ests.all fun e => e.estimate.isSome

open Classical in
/-- **C138** is refuted for tunings with fresh finite difference estimators, whatever the device is and however many
tuners there are: while the first `n` calls of `iterate` are made (`n` gates) every append raises
`TypeError`; the history stays without rows, but the files are stored as if there were rows. -/
theorem fresh_estimators_history_refuted {κ ρ π : Type} (R : Reader (Shared (FD n) n) (Volt (Fin n)) κ ρ) (orth : Orth n)
    (lstsq : Newton.Lstsq (Fin n)) (K : Nat) (hK : 0 < K) (outs : Nat → Volt (Fin n) → List Outcome) (path : Nat → π)
    (w : Shared (FD n) n) (x : Volt (Fin n)) (hlen : ∀ i, (w.tuners i).solver.target.length = w.ests.length)
    (hfresh : ∀ e ∈ w.ests, ∃ pos eps sym, e = FD.new pos eps sym) (hne : w.ests ≠ []) (k : Nat) (hk : k ≤ n) :
    (∀ o ∈ (watched R gradientsKnown (multiHierarchy (fdI orth) lstsq K outs) path (fresh w x) k).2.2,
      o = .error .typeError) ∧
    (watched R gradientsKnown (multiHierarchy (fdI orth) lstsq K outs) path (fresh w x) k).2.1.rows = [] ∧
    (watched R gradientsKnown (multiHierarchy (fdI orth) lstsq K outs) path (fresh w x) k).2.1.paths.length =
      (watched R gradientsKnown (multiHierarchy (fdI orth) lstsq K outs) path (fresh w x) k).2.2.length := by
  have key : ∀ k ≤ n,
      FewShared w.ests.length k (watched R gradientsKnown (multiHierarchy (fdI orth) lstsq K outs) path (fresh w x) k).1.tuners ∧
      (∀ o ∈ (watched R gradientsKnown (multiHierarchy (fdI orth) lstsq K outs) path (fresh w x) k).2.2,
        o = .error .typeError) ∧
      (watched R gradientsKnown (multiHierarchy (fdI orth) lstsq K outs) path (fresh w x) k).2.1.rows = [] ∧
      (watched R gradientsKnown (multiHierarchy (fdI orth) lstsq K outs) path (fresh w x) k).2.1.paths.length =
        (watched R gradientsKnown (multiHierarchy (fdI orth) lstsq K outs) path (fresh w x) k).2.2.length := by
    intro k
    induction k with
    | zero =>
      intro _
      refine ⟨⟨hlen, rfl, ?_⟩, by simp [watched], rfl, rfl⟩
      intro e he
      obtain ⟨pos, eps, sym, rfl⟩ := hfresh e he
      exact ⟨rfl, le_refl _⟩
    | succ k ih =>
      intro hk
      obtain ⟨h1, h3, h4, h5⟩ := ih (by omega)
      unfold watched
      rcases hw : watched R gradientsKnown (multiHierarchy (fdI orth) lstsq K outs) path (fresh w x) k with ⟨s, h, os⟩
      rw [hw] at h1 h3 h4 h5
      dsimp only at h1 h3 h4 h5 ⊢
      have h6 := few_iterate (orth := orth) (lstsq := lstsq) (K := K) (outs := outs) (by omega : k < n) h1
      have h7 : (iterate (multiHierarchy (fdI orth) lstsq K outs) (.ok ()) s).1.tuners.ests ≠ [] := fun h => by
        have := h6.2.1
        rw [h] at this
        exact hne (List.length_eq_zero_iff.1 this.symm)
      rcases hi : iterate (multiHierarchy (fdI orth) lstsq K outs) (.ok ()) s with ⟨s', evs, r⟩
      rw [hi] at h6 h7
      dsimp only at h6 h7 ⊢
      cases r with
      | error e => exact ⟨h6, h3, h4, h5⟩
      | ok u =>
        dsimp only
        have hmiss : (R.gview gradientsKnown (multiHierarchy (fdI orth) lstsq K outs) s').known.any (!·) = true := by
          rw [List.any_eq_true]
          refine ⟨false, ?_, rfl⟩
          refine List.mem_map.2 ⟨0, List.mem_range.2 hK, ?_⟩
          obtain ⟨e, he⟩ := List.exists_mem_of_ne_nil _ h7
          unfold gradientsKnown
          rw [List.all_eq_false]
          exact ⟨e, he, by simp [(h6.2.2 e he).1]⟩
        have h8 : appendG h (R.gview gradientsKnown (multiHierarchy (fdI orth) lstsq K outs) s') (path k) =
            (⟨h.rows, h.paths ++ [path k]⟩, .error .typeError) := by
          unfold appendG
          rw [h4, hmiss]
          rfl
        rw [h8]
        refine ⟨h6, ?_, h4, ?_⟩
        · intro o ho
          rcases List.mem_append.1 ho with ho | ho
          · exact h3 o ho
          · simpa using ho
        · simp [h5]
  exact ⟨(key k hk).2.1, (key k hk).2.2.1, (key k hk).2.2.2⟩

/-- A hierarchy of two tuners with fresh estimators: its first two appends raise and the third append, the first one that
can succeed, makes row 0, to which the file of the first call of `iterate` belongs. -/
example (orth : Orth 2) (lstsq : Newton.Lstsq (Fin 2)) (outs : Nat → Volt (Fin 2) → List Outcome) {κ ρ : Type}
    (R : Reader (Shared (FD 2) 2) (Volt (Fin 2)) κ ρ) :
    (watched R gradientsKnown (multiHierarchy (fdI orth) lstsq 2 outs) (fun k => k)
      (fresh (sampleScratch (FD.new none (fun _ => 1) false) (FD.new none (fun _ => 2) false)) (volts fun _ => 80)) 2).2.1.rows
      = [] :=
  (fresh_estimators_history_refuted R orth lstsq 2 (by norm_num) outs _ _ _
    (fun i => by simp [sampleScratch, samplePlan, Plan.target]) (fun e he => by
      rcases List.mem_cons.1 he with rfl | he
      · exact ⟨_, _, _, rfl⟩
      · rw [List.mem_singleton.1 he]; exact ⟨_, _, _, rfl⟩) (by simp [sampleScratch]) 2 (le_refl _)).2.1

end Qtune.EndToEnd
