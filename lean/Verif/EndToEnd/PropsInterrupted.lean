import Verif.EndToEnd.CrashRun
import Verif.EndToEnd.PropsLearning
import Verif.Kalman.EstimatorHistory

/-!
# End to end: a tuning that is interrupted again and again (C131)

* `interrupted_tuning_completes_partial`: with Kalman estimators
* `interrupted_tuning_refuted`: with finite differences the newest file can never be loaded
-/

namespace Qtune.EndToEnd

open Qtune.Tuner Qtune.Gradient Qtune.Autotuner Qtune.Kalman

variable {n m : Nat} {X : Type}

/-! ## Helper lemmas -/

theorem solver_keepsTarget (I : Newton.EstI X (Fin n)) (lstsq : Newton.Lstsq (Fin n)) :
    KeepsTarget (Newton.solver I lstsq) := by
  refine ⟨fun _ _ => rfl, ?_, ?_⟩
  · intro v p q s
    show (Newton.update I v p q s).1.target = s.target
    unfold Newton.update
    split
    · rfl
    · split <;> rfl
  · intro l s
    show (Newton.suggest I lstsq l s).1.target = s.target
    unfold Newton.suggest
    split
    · rfl
    · split
      · rfl
      · rfl
      · split <;> rfl

theorem isTuned_solver {S ι : Type} (I : SolverI S ι) (outs : List Outcome) (v : Volt ι) (t : SubsetTuner S ι) :
    (isTuned I outs v t).1.solver = t.solver ∨ (isTuned I outs v t).1.solver = I.setPosition v t.solver ∨
      ∃ p q, (isTuned I outs v t).1.solver = (I.update v p q t.solver).1 := by
  unfold isTuned
  dsimp only
  split
  · exact Or.inr (Or.inl rfl)
  · split
    · exact Or.inl rfl
    · split
      · exact Or.inl rfl
      · split
        · exact Or.inl rfl
        · split
          · exact Or.inl rfl
          · split
            · rename_i s e hu
              exact Or.inr (Or.inr ⟨_, _, (congrArg Prod.fst hu).symm⟩)
            · rename_i s hu
              split <;> exact Or.inr (Or.inr ⟨_, _, (congrArg Prod.fst hu).symm⟩)

theorem nextVoltages_solver {S ι : Type} [Fintype ι] (I : SolverI S ι) (l : List String) (t : SubsetTuner S ι) :
    (nextVoltages I l t).1.solver = t.solver ∨ (nextVoltages I l t).1.solver = (I.suggest l t.solver).1 := by
  unfold nextVoltages
  dsimp only
  split
  · split <;> exact Or.inl rfl
  · split
    · rename_i s e hu
      exact Or.inr (congrArg Prod.fst hu).symm
    · rename_i s sug hu
      split <;> exact Or.inr (congrArg Prod.fst hu).symm

/-- What is true of the solver of a tuner after any use of the tuner. -/
theorem reach_solver {S ι : Type} [Fintype ι] {I : SolverI S ι} {Q : S → Prop}
    (h1 : ∀ v s, Q s → Q (I.setPosition v s)) (h2 : ∀ v p q s, Q s → Q (I.update v p q s).1)
    (h3 : ∀ l s, Q s → Q (I.suggest l s).1) {t₀ t : SubsetTuner S ι} (h : Reach I t₀ t) (h0 : Q t₀.solver) :
    Q t.solver := by
  induction h with
  | start => exact h0
  | evaluate outs v _ ih =>
    rename_i t _
    rcases isTuned_solver I outs v t with e | e | ⟨p, q, e⟩
    · rw [e]; exact ih
    · rw [e]; exact h1 _ _ ih
    · rw [e]; exact h2 _ _ _ _ ih
  | suggest l _ ih =>
    rename_i t _
    rcases nextVoltages_solver I l t with e | e
    · rw [e]; exact ih
    · rw [e]; exact h3 _ _ ih

theorem iterate_reach {I : Newton.EstI X (Fin n)} {lstsq : Newton.Lstsq (Fin n)}
    {outs : Volt (Fin n) → List Outcome} {t₀ : OneTuner X n}
    {s s' : Autotuner.State (OneTuner X n) (Volt (Fin n)) (Volt (Fin n))} {ev}
    (h : iterate (hierarchy I lstsq outs) (.ok ()) s = (s', ev, .ok ()))
    (hr : Reach (Newton.solver I lstsq) t₀ s.tuners) : Reach (Newton.solver I lstsq) t₀ s'.tuners := by
  revert h
  unfold iterate
  split
  · intro h; simp at h
  · intro h; simp at h
  · split
    · intro h; simp at h
    · split
      · split
        · intro h; simp at h
        · split
          · intro h; simp at h
          · intro h
            simp only [finish, Prod.mk.injEq, and_true] at h
            rw [← h.1]
            exact hr
      · split
        · intro h; simp at h
        · split
          · have hw : ((hierarchy I lstsq outs).isTuned s.index ((hierarchy I lstsq outs).read s.expt) s.tuners
                s.expt).1.1 = (isTuned (Newton.solver I lstsq) (outs s.expt) s.expt s.tuners).1 := rfl
            split
            · intro h; simp at h
            all_goals
              rename_i heq
              rw [heq] at hw
              intro h
              simp only [finish, Prod.mk.injEq, and_true] at h
              rw [← h.1]
              show Reach _ _ _
              dsimp only at hw ⊢
              rw [hw]
              exact .evaluate _ _ hr
          · have hw : ∀ p, ((hierarchy I lstsq outs).nextVolt s.index p s.tuners).1 =
                (nextVoltages (Newton.solver I lstsq) p s.tuners).1 := fun _ => rfl
            split
            · intro h; simp at h
            · rename_i heq
              have hw := hw ((hierarchy I lstsq outs).tunedParams s.tuners s.index)
              rw [heq] at hw
              intro h
              simp only [finish, Prod.mk.injEq, and_true] at h
              rw [← h.1]
              show Reach _ _ _
              dsimp only at hw ⊢
              rw [hw]
              exact .suggest _ hr

theorem iterates_reach {I : Newton.EstI X (Fin n)} {lstsq : Newton.Lstsq (Fin n)}
    {outs : Volt (Fin n) → List Outcome} {t₀ : OneTuner X n} (k : Nat)
    {s s' : Autotuner.State (OneTuner X n) (Volt (Fin n)) (Volt (Fin n))}
    (h : iterates (hierarchy I lstsq outs) k s = .ok s')
    (hr : Reach (Newton.solver I lstsq) t₀ s.tuners) : Reach (Newton.solver I lstsq) t₀ s'.tuners := by
  induction k generalizing s with
  | zero => cases h; exact hr
  | succ k ih =>
    rw [iterates] at h
    rcases hx : iterate (hierarchy I lstsq outs) (.ok ()) s with ⟨u, ev, e | _⟩
    · rw [hx] at h; cases h
    · rw [hx] at h
      exact ih h (iterate_reach hx hr)

theorem reloadAll_ok {reload : X → Except PyErr X} (h : ∀ e, reload e = .ok e) (l : List X) :
    reloadAll reload l = .ok l := by
  induction l with
  | nil => rfl
  | cons e l ih => simp [reloadAll, h, ih]

theorem map_val_index (s : Series) (h : s.index.Nodup) : (s.index.map fun l => (l, s.val l)) = s := by
  induction s with
  | nil => rfl
  | cons e s ih =>
    have hn : e.1 ∉ Series.index s ∧ (Series.index s).Nodup := by simpa [Series.index] using h
    have h1 : Series.index (e :: s) = e.1 :: Series.index s := rfl
    rw [h1, List.map_cons]
    have h2 : Series.val (e :: s) e.1 = e.2 := by
      obtain ⟨a, b⟩ := e
      simp [Series.val]
    have h3 : ∀ l ∈ Series.index s, (l, Series.val (e :: s) l) = (l, Series.val s l) := by
      intro l hl
      have : l ≠ e.1 := fun h => hn.1 (h ▸ hl)
      obtain ⟨a, b⟩ := e
      simp only [Series.val, List.lookup_cons, beq_eq_false_iff_ne.2 this]
    rw [h2, List.map_congr_left h3, ih hn.2]

theorem reloadSolver_ok {reload : X → Except PyErr X} (h : ∀ e, reload e = .ok e) {target : Target}
    {gates : List (Fin n)} {s : Newton.State X (Fin n)} (hs : Newton.Sound target gates s)
    (hn : target.names.Nodup) : reloadSolver reload s = .ok s := by
  unfold reloadSolver
  rw [reloadAll_ok h]
  dsimp only
  unfold Newton.new
  rw [if_neg (by rw [hs.sameTarget, hs.estimators]; simp)]
  dsimp only
  rw [if_pos, if_neg]
  · have : (s.target.names.map fun l => (l, s.values.val l)) = s.values := by
      rw [hs.sameTarget, ← hs.index]
      exact map_val_index _ (by rw [hs.index]; exact hn)
    rw [this]
  · have := hs.enough
    rw [hs.sameTarget]
    omega
  · rw [List.all_eq_true]
    intro l hl
    rw [hs.sameTarget, ← hs.index] at hl
    rw [List.lookup_isSome_iff]
    obtain ⟨e, he, rfl⟩ := List.mem_map.1 hl
    exact ⟨e, he, beq_self_eq_true _⟩

theorem ask_exists {P : X → Prop} {I : Newton.EstI X (Fin n)} (hI : ∀ g tj e, P e → P (I.require g tj e).1)
    (gates : List (Fin n)) (tj : Option (List (Fin n → Val))) (l : List (Row × X)) (h : ∃ re ∈ l, P re.2) :
    ∃ e ∈ (Newton.ask I gates tj l).1, P e := by
  induction l with
  | nil => simp at h
  | cons re l ih =>
    obtain ⟨r, e⟩ := re
    have hcase : P e ∨ ∃ re ∈ l, P re.2 := by simpa using h
    have hreq : P e → P (I.require gates tj e).1 := hI gates tj e
    have hrest : (∃ re ∈ l, P re.2) → ∃ e ∈ l.map Prod.snd, P e := by
      rintro ⟨re, h1, h2⟩
      exact ⟨_, List.mem_map_of_mem h1, h2⟩
    have mk : ∀ (e' : X) (es : List X), (P e → P e') → ((∃ re ∈ l, P re.2) → ∃ e ∈ es, P e) →
        ∃ x ∈ e' :: es, P x := by
      intro e' es h1 h2
      rcases hcase with h | h
      · exact ⟨e', by simp, h1 h⟩
      · obtain ⟨x, hx, hp⟩ := h2 h
        exact ⟨x, by simp [hx], hp⟩
    unfold Newton.ask
    split
    · exact mk _ _ id ih
    · split
      all_goals
        rename_i heq
        rw [heq] at hreq
      · exact mk _ _ hreq hrest
      · split
        · split
          · exact mk _ _ hreq hrest
          · exact mk _ _ hreq ih
        · exact mk _ _ hreq ih

theorem feed_exists {P : X → Prop} {I : Newton.EstI X (Fin n)} (hI : ∀ v x y e, P e → P (I.update v x y e).1)
    (T : Target) (v : Volt (Fin n)) (l : List X) (vals : Series) (vars : List Val) (h : ∃ e ∈ l, P e) :
    ∃ e ∈ (Newton.feed I T v l vals vars).1, P e := by
  induction l generalizing vals vars with
  | nil => simp at h
  | cons e l ih =>
    have hcase : P e ∨ ∃ e ∈ l, P e := by simpa using h
    have mk : ∀ (e' : X) (es : List X), (P e → P e') → ((∃ e ∈ l, P e) → ∃ e ∈ es, P e) →
        ∃ x ∈ e' :: es, P x := by
      intro e' es h1 h2
      rcases hcase with h | h
      · exact ⟨e', by simp, h1 h⟩
      · obtain ⟨x, hx, hp⟩ := h2 h
        exact ⟨x, by simp [hx], hp⟩
    match vals, vars with
    | [], _ => simpa [Newton.feed] using h
    | _ :: _, [] => simpa [Newton.feed] using h
    | (n, x) :: vals, y :: vars =>
      have hupd := hI v x y e
      unfold Newton.feed
      split
      · exact h
      · split
        · exact mk _ _ id (ih _ _)
        · split
          all_goals
            rename_i heq
            rw [heq] at hupd
          · exact mk _ _ hupd id
          · exact mk _ _ hupd (ih _ _)

/-- Once an estimator has a property that no call takes away from it, some estimator of the solver has it forever. -/
theorem solver_exists {P : X → Prop} {I : Newton.EstI X (Fin n)} (hI : ∀ g tj e, P e → P (I.require g tj e).1)
    (hI' : ∀ v x y e, P e → P (I.update v x y e).1) (lstsq : Newton.Lstsq (Fin n)) {target : Target}
    {gates : List (Fin n)} {t u : OneTuner X n} (h : Reach (Newton.solver I lstsq) t u)
    (hs : Newton.Sound target gates t.solver) (h0 : ∃ e ∈ t.solver.ests, P e) : ∃ e ∈ u.solver.ests, P e := by
  refine (reach_solver (Q := fun s => Newton.Sound target gates s ∧ ∃ e ∈ s.ests, P e) ?_ ?_ ?_ h ⟨hs, h0⟩).2
  · rintro v s ⟨h1, h2⟩
    exact ⟨h1.call I lstsq (.setPosition v), h2⟩
  · rintro v p q s ⟨h1, h2⟩
    refine ⟨h1.call I lstsq (.update v p q), ?_⟩
    show ∃ e ∈ (Newton.update I v p q s).1.ests, P e
    unfold Newton.update
    split
    · exact h2
    · rename_i vals _
      have := feed_exists hI' s.target v s.ests vals (q.map Prod.snd) h2
      split
      all_goals
        rename_i heq
        rw [heq] at this
        exact this
  · rintro l s ⟨h1, h2⟩
    refine ⟨h1.call I lstsq (.suggest l), ?_⟩
    show ∃ e ∈ (Newton.suggest I lstsq l s).1.ests, P e
    unfold Newton.suggest
    split
    · exact h2
    · rename_i tj _
      have hz : ∃ re ∈ s.target.zip s.ests, P re.2 := by
        obtain ⟨e, he, hp⟩ := h2
        obtain ⟨i, hi, rfl⟩ := List.mem_iff_getElem.1 he
        have hi' : i < s.target.length := by rw [h1.sameTarget, ← h1.estimators]; exact hi
        exact ⟨(s.target[i], s.ests[i]), by
          rw [List.mem_iff_getElem]
          exact ⟨i, by rw [List.length_zip]; omega, by simp⟩, hp⟩
      have := ask_exists hI s.gates tj _ hz
      split
      all_goals
        rename_i heq
        rw [heq] at this
      · exact this
      · exact this
      · split <;> exact this

theorem reloadAll_error (l : List (FD n)) (h : ∃ e ∈ l, e.stored ≠ []) :
    reloadAll FD.reload l = .error .assertionError := by
  induction l with
  | nil => simp at h
  | cons e l ih =>
    unfold reloadAll
    by_cases he : e.stored = []
    · rw [estimator_reload_partial e he]
      obtain ⟨x, hx, hp⟩ := h
      rcases List.mem_cons.1 hx with rfl | hx
      · exact absurd he hp
      · rw [ih ⟨x, hx, hp⟩]
    · have : e.reload = .error .assertionError := by
        unfold FD.reload
        split
        · rename_i h'; exact absurd h' he
        · rfl
      rw [this]

theorem stored_require (orth : Orth n) (g : List (Fin n)) (e : FD n) (h : e.stored ≠ []) :
    (e.require orth g).1.stored ≠ [] := by
  unfold FD.require
  split
  · exact h
  · split
    · exact h
    · split <;> exact h

theorem stored_update (p : Vec n) (x y : Val) (e : FD n) (h : e.symmetric = false ∨ e.stored ≠ []) 
    (hn : e.stored ≠ [] ∨ e.estimate = none) :
    (e.update p x y).1.stored ≠ [] := by
  unfold FD.update
  split
  · rcases h with h | h
    · simp [h]
    · split <;> simp [h]
  · split
    · rename_i _ _ _ _ he
      rcases hn with hn | hn
      · exact hn
      · rw [hn] at he; cases he
    · dsimp only
      split
      · split <;> simp
      · split
        · split <;> simp
        · simp

theorem valid_enough {S : Setup n m} (hS : S.Valid) : S.target.length ≤ S.gates.length := by
  have h1 : m ≤ n := by simpa using hS.independent.fintype_card_le_finrank
  have h2 : n ≤ S.gates.length := by
    have h : (Finset.univ : Finset (Fin n)) ⊆ S.gates.toFinset := fun i _ => by simpa using hS.gates_all i
    have := (Finset.card_le_card h).trans (List.toFinset_card_le _)
    simpa using this
  simpa [Setup.target] using h1.trans h2

/-! ## C131 -/

/-- Crashes change nothing if the estimators can be rebuilt: if an autotuner is complete within `N` calls of `iterate`,
and its tuner has been made by the constructor with a target whose columns are filled for all parameters or none, it is
complete within `N` calls however often the process dies. -/
theorem crashes_do_not_matter {S : Setup n m} {I : Newton.EstI X (Fin n)} {lstsq : Newton.Lstsq (Fin n)}
    {reload : X → Except PyErr X} (hreload : ∀ e, reload e = .ok e) (a : Args (Newton.State X (Fin n)) (Fin n))
    (ha : a.lastValues = none) (ha' : a.lastVariances = none) {t : OneTuner X n}
    (ht : construct (Newton.solver I lstsq) a = .ok t) (hu : UniformColumns t.solver.target)
    (hs : Newton.Sound t.solver.target t.solver.gates t.solver) (hn : t.solver.target.names.Nodup) (c : Vec n) {N : Nat}
    (h : CompletesWithin S I lstsq N (fresh t (volts c))) :
    CompletesDespiteCrashes S I lstsq (reloadTuner I lstsq a.evaluatorParameters reload) N (fresh t (volts c)) := by
  set H := hierarchy I lstsq S.outs with hH
  have hsol : a.solver = t.solver := (construct_ok ht).1.symm
  have hload : ∀ k u, iterates H (k + 1) (fresh t (volts c)) = .ok u →
      reloadTuner I lstsq a.evaluatorParameters reload u.tuners = .ok u.tuners := by
    intro k u hk
    have hr : Reach (Newton.solver I lstsq) t u.tuners := iterates_reach _ hk .start
    have hsound : Newton.Sound t.solver.target t.solver.gates u.tuners.solver :=
      reach_solver (Q := Newton.Sound t.solver.target t.solver.gates)
        (fun v s h => h.call I lstsq (.setPosition v)) (fun v p q s h => h.call I lstsq (.update v p q))
        (fun l s h => h.call I lstsq (.suggest l)) hr hs
    unfold reloadTuner
    rw [reloadSolver_ok hreload hsound hn]
    exact subset_reload_partial (Newton.solver I lstsq) (solver_keepsTarget I lstsq) a ha ha'
      (by rw [hsol]; exact hu) t _ ht hr
  obtain ⟨M, hM, u, hu1, hu2, q, hq, hmet⟩ := h
  intro s log hrun
  obtain ⟨w, hw, hsame, hrec⟩ := hrun.follows (fun _ _ _ _ => rfl) (fun _ _ => rfl) (fun _ _ _ _ => rfl) hload
  have hcomp : isComplete H s = isComplete H w := by
    unfold isComplete
    rw [show s.index = w.index from congrArg Snapshot.index hsame.1]
  -- a complete autotuner does not iterate
  have hstop : ∀ x x' ev, isComplete H x = true → iterate H (.ok ()) x ≠ (x', ev, .ok ()) := by
    intro x x' ev hx hi
    have : (iterate H (.ok ()) x).2.2 = .error errComplete := by
      unfold iterate
      rw [show H.ready x.tuners x.expt x.pending = .ok true from rfl]
      simp [hx]
    rw [hi] at this
    cases this
  have hle : calls log ≤ M := by
    by_contra hlt
    obtain ⟨d, hd⟩ := Nat.exists_eq_add_of_lt (not_le.1 hlt)
    rw [show calls log = (M + 1) + d by omega] at hw
    obtain ⟨y, hy⟩ := iterates_prefix H hw
    obtain ⟨ev, hev⟩ := iterates_succ_inv H hu1 hy
    exact hstop _ _ _ hu2 hev
  have hend : calls log = M → w = u := by
    intro hk
    rw [hk, hu1] at hw
    cases hw
    rfl
  refine ⟨⟨_, hrec⟩, ?_, hle.trans hM, ?_, ?_⟩
  · rcases hle.eq_or_lt with hk | hk
    · left
      rw [hcomp, hend hk]
      exact hu2
    · right
      obtain ⟨d, hd⟩ := Nat.exists_eq_add_of_lt hk
      have hu1' := hu1
      rw [show M = (calls log + 1) + d by omega] at hu1'
      obtain ⟨y, hy⟩ := iterates_prefix H hu1'
      obtain ⟨ev, hev⟩ := iterates_succ_inv H hw hy
      exact ⟨_, _, SameUpToTornWrite.iterate (SameUpToTornWrite.symm hsame) hev⟩
  · intro hk
    have : calls log = M := by omega
    rw [hcomp, hend this]
    exact hu2
  · intro hc
    have hk : calls log = M := by
      rcases hle.eq_or_lt with hk | hk
      · exact hk
      · exfalso
        obtain ⟨d, hd⟩ := Nat.exists_eq_add_of_lt hk
        have hu1' := hu1
        rw [show M = (calls log + 1) + d by omega] at hu1'
        obtain ⟨y, hy⟩ := iterates_prefix H hu1'
        obtain ⟨ev, hev⟩ := iterates_succ_inv H hw hy
        exact hstop _ _ _ (hcomp ▸ hc) hev
    have hwu := hend hk
    subst hwu
    refine ⟨q, ?_, hmet⟩
    rcases hsame.2 with h | ⟨v, hv, -, -⟩
    · rw [h]; exact hq
    · exfalso
      have hlt : w.index < H.len := by
        cases hM' : M with
        | zero => rw [hM'] at hu1; cases hu1; cases hv
        | succ M' =>
          rw [hM'] at hu1
          obtain ⟨y, hy⟩ := iterates_prefix H (j := M') (k := 1) hu1
          obtain ⟨ev, hev⟩ := iterates_succ_inv H hy hu1
          exact iterate_pending H hev (by rw [hv]; simp)
      have : w.index = H.len := by simpa [isComplete] using hu2
      omega

/-- **C131 (provable part).**  The affine device with Kalman estimators that learn the gradients (C121): there is a
number `K` of calls of `iterate` after which the tuning is complete and the set points are met, however often the
process dies at any point of any call, writes of voltages included, and is continued from the newest file.  In all
these executions the newest file can be loaded and `iterate` does not raise.  The tuner has been made by the
constructor without stored values; every column of the target is filled for all parameters or none.
Missing: finite difference estimators, see `interrupted_tuning_refuted`; targets with columns that are filled for some
parameters only (the tuner itself cannot be loaded, C25). -/
theorem interrupted_tuning_completes_partial {S : Setup n m} (hS : S.Valid) {eigh : Eigh} (heigh : EighSpec eigh)
    {nullspace : Nullspace} (hnull : NullspaceSpec nullspace) {lstsq : Newton.Lstsq (Fin n)}
    (hls : Newton.LstsqSpec lstsq) (c : Vec n) {l ε r : ℝ} (hl : 0 < l) (hε : 1 / 10000000 ≤ |ε|)
    (hvar : ∀ y ∈ S.variances, 0 < y ∧ ∀ k, y / (S.scale k * S.scale k) ≤ r)
    {E : Fin m → Est n} {t : OneTuner (Est n) n} (ht : LearningInitial S l ε E t) {σ : ℝ} (hσ0 : 0 < σ)
    (hσ : ∀ x : Fin m → ℝ, σ * len x ≤ len fun i => ∑ k, x k * (S.grad k i / S.scale k))
    (hρ : l * ∑ k, surprise (E k) (fun i => S.grad k i / S.scale k) < (σ / 2) ^ 2)
    (a : Args (Newton.State (Est n) (Fin n)) (Fin n)) (ha : a.lastValues = none) (ha' : a.lastVariances = none)
    (hmade : construct (Newton.solver (kalmanI eigh nullspace) lstsq) a = .ok t) (hu : UniformColumns S.target) :
    ∃ K, CompletesDespiteCrashes S (kalmanI eigh nullspace) lstsq
      (reloadTuner (kalmanI eigh nullspace) lstsq a.evaluatorParameters fun e => .ok e.reload) K
      (fresh t (volts c)) := by
  obtain ⟨K, hK⟩ := learns_and_tunes_finally hS heigh hnull hls c hl hε hvar ht hσ0 hσ hρ
  refine ⟨K, crashes_do_not_matter (fun e => by rw [(kalman_reload e.filter e).2]) a ha ha' hmade ?_ ?_ ?_ c hK⟩
  · rw [ht.target]; exact hu
  · refine ⟨rfl, rfl, ?_, ?_, ?_⟩
    · rw [ht.ests, ht.target]
      simp [Setup.target]
    · rw [ht.target, ht.gates]
      exact valid_enough hS
    · rw [ht.target]; exact ht.index
  · rw [ht.target]; exact hS.names

theorem fd_never_reloads {S : Setup n m} (hS : S.Valid) {orth : Orth n} (ho : OrthSpec orth)
    {lstsq : Newton.Lstsq (Fin n)} (c : Vec n) (t : OneTuner (FD n) n) {B : ℝ} (ht : Initial S c B t)
    (params : List String) (k : Nat) (s : Autotuner.State (OneTuner (FD n) n) (Volt (Fin n)) (Volt (Fin n)))
    (h : iterates (hierarchy (fdI orth) lstsq S.outs) (k + 1) (fresh t (volts c)) = .ok s) :
    reloadTuner (fdI orth) lstsq params FD.reload s.tuners = .error .assertionError := by
  obtain ⟨start, eps, hstart, heps, hests⟩ := ht.ests
  have hn : n ≠ 0 := by
    rintro rfl
    have := hS.independent.fintype_card_le_finrank
    simp at this
    exact hS.nonempty this
  have hbase : Base S (t.maxStep, t.maxNumber) (fun k => FD.new (start k) (eps k) false) t :=
    ⟨ht.target, hests, ht.gates, ht.index, rfl, rfl, ht.queued, ht.lastIndex⟩
  have hupd : ∀ k, ∀ y ∈ S.seen k, ∃ e', (fdI orth).update (volts c) (some (S.scaled k c)) (some y)
      (FD.new (start k) (eps k) false) = (e', .ok ()) := fun k y _ => by
    obtain ⟨e', he', -⟩ := Col.start (f := S.scaled k) (η := none) hn c (eps k) (fun i => (heps k i).1)
      (fun i => (heps k i).2) (by simp) (start k) (hstart k) y
    exact ⟨e', he'⟩
  obtain ⟨y, t', b, hev, -, hAt, -⟩ := evaluation (lstsq := lstsq) (I := fdI orth) hS.toSound hbase c hupd
  -- the tuner after the first call
  have h1 : iterates (hierarchy (fdI orth) lstsq S.outs) 1 (fresh t (volts c)) =
      .ok ⟨t', volts c, if b then 1 else 0, !b, none⟩ := by
    have : (iterate (hierarchy (fdI orth) lstsq S.outs) (.ok ()) (fresh t (volts c))).1 =
        ⟨t', volts c, if b then 1 else 0, !b, none⟩ ∧
        (iterate (hierarchy (fdI orth) lstsq S.outs) (.ok ()) (fresh t (volts c))).2.2 = .ok () := by
      cases b <;> simp [iterate, fresh, hierarchy, isComplete, finish, hev]
    unfold iterates
    rcases hi : iterate (hierarchy (fdI orth) lstsq S.outs) (.ok ()) (fresh t (volts c)) with ⟨s₁, ev, r⟩
    rw [hi] at this
    simp only at this
    obtain ⟨rfl, rfl⟩ := this
    rfl
  rw [Nat.add_comm, iterates_add _ 1 k _ _ h1] at h
  have hr : Reach (Newton.solver (fdI orth) lstsq) t' s.tuners := iterates_reach _ h .start
  have hsome : ∃ e ∈ t'.solver.ests, e.stored ≠ [] := by
    have k0 : Fin m := ⟨0, Nat.pos_of_ne_zero hS.nonempty⟩
    rw [hAt.ests]
    refine ⟨_, (List.mem_ofFn' _ _).2 ⟨k0, rfl⟩, ?_⟩
    exact stored_update _ _ _ _ (.inl rfl) (.inr rfl)
  have hsound : Newton.Sound S.target S.gates t'.solver :=
    ⟨hAt.target, hAt.gates, by rw [hAt.ests]; simp [Setup.target], by rw [hAt.gates]; exact valid_enough hS, hAt.index⟩
  have := solver_exists (P := fun e : FD n => e.stored ≠ []) (I := fdI orth)
    (fun g tj e he => stored_require orth g e he)
    (fun v x y e he => stored_update _ _ _ e (.inr he) (.inl he)) lstsq hr hsound hsome
  unfold reloadTuner reloadSolver
  rw [reloadAll_error _ this]

/-- **C131** is false with finite difference estimators: for every device and tuner of C75, none of the files that the
autotuner writes can be loaded, although the tuning would be completed if the process did not die. -/
theorem interrupted_tuning_refuted {S : Setup n m} (hS : S.Valid) {orth : Orth n} (ho : OrthSpec orth)
    {lstsq : Newton.Lstsq (Fin n)} (c : Vec n) (t : OneTuner (FD n) n) {B : ℝ} (ht : Initial S c B t)
    (params : List String) {s : Autotuner.State (OneTuner (FD n) n) (Volt (Fin n)) (Volt (Fin n))}
    {log : List (Event (OneTuner (FD n) n) (Volt (Fin n)) (List String))}
    (hrun : Interrupted (hierarchy (fdI orth) lstsq S.outs) (reloadTuner (fdI orth) lstsq params FD.reload)
      (fresh t (volts c)) s log) (hlog : log ≠ []) :
    recovered (reloadTuner (fdI orth) lstsq params FD.reload) (fresh t (volts c)).snapshot log =
      .error .assertionError := by
  have hbad := fd_never_reloads hS ho (lstsq := lstsq) c t ht params
  set H := hierarchy (fdI orth) lstsq S.outs with hH
  set s₀ := fresh t (volts c) with hs₀
  set load := reloadTuner (fdI orth) lstsq params FD.reload with hloaddef
  suffices (log = [] ∧ s = s₀) ∨ (newestSaved log = some s.snapshot ∧ ∃ k, iterates H (k + 1) s₀ = .ok s) by
    rcases this with ⟨h, -⟩ | ⟨h, k, hk⟩
    · exact absurd h hlog
    · unfold recovered
      rw [h]
      dsimp only
      rw [show s.snapshot.tuners = s.tuners from rfl, hbad k s hk]
  clear hlog
  induction hrun with
  | start => exact Or.inl ⟨rfl, rfl⟩
  | @iter s s' log ev _ hi ih =>
    obtain ⟨e, he, rfl⟩ := iterate_events H hi
    refine Or.inr ⟨by rw [newestSaved_append, newestSaved_events he]; rfl, ?_⟩
    rcases ih with ⟨-, rfl⟩ | ⟨-, k, hk⟩
    · exact ⟨0, iterates_succ H (k := 0) rfl hi⟩
    · exact ⟨k + 1, iterates_succ H hk hi⟩
  | @crash s log x' p _ hx hp ih =>
    rcases ih with ⟨rfl, rfl⟩ | ⟨h, k, hk⟩
    · refine Or.inl ⟨rfl, ?_⟩
      have hpe : p = s₀.snapshot := by
        simp only [recovered, newestSaved, Except.ok.injEq] at hp
        exact hp.symm
      have hxe : x' = s₀.expt := by
        rcases hx with h | h | ⟨v, hv, -⟩
        · exact h
        · rw [h]
          exact iterate_expt_none (fun _ _ _ _ => rfl) rfl
        · cases hv
      rw [hpe, hxe]
      rfl
    · exfalso
      unfold recovered at hp
      rw [h] at hp
      dsimp only at hp
      rw [show s.snapshot.tuners = s.tuners from rfl, hbad k s hk] at hp
      cases hp

/-- Process dies directly after the first call of `iterate` has returned: the file cannot be loaded; without the crash
the tuning is completed (C75). -/
example {orth : Orth 2} (ho : OrthSpec orth) {lstsq : Newton.Lstsq (Fin 2)} (hl : Newton.LstsqSpec lstsq) :
    CompletesWithin sampleSetup (fdI orth) lstsq 10 (fresh sampleTuner (volts fun _ => 8)) ∧
    ∃ s log, Interrupted (hierarchy (fdI orth) lstsq sampleSetup.outs)
      (reloadTuner (fdI orth) lstsq ["x"] FD.reload) (fresh sampleTuner (volts fun _ => 8)) s log ∧ log ≠ [] := by
  have h := affine_device_is_tuned sampleSetup_valid ho hl (fun _ => 8) sampleTuner (B := 1 / 2)
    ⟨rfl, ⟨fun _ => none, fun _ _ => 1 / 2, fun _ => .inl rfl, fun _ _ => by norm_num, rfl⟩, rfl,
      rfl, by simp [sampleTuner, Series.index], rfl⟩ rfl
  refine ⟨h, ?_⟩
  obtain ⟨M, -, s', hs', hc, -⟩ := h
  cases M with
  | zero => cases hs'; simp [isComplete, fresh, hierarchy] at hc
  | succ M =>
    rw [iterates] at hs'
    rcases hx : iterate (hierarchy (fdI orth) lstsq sampleSetup.outs) (.ok ()) (fresh sampleTuner (volts fun _ => 8))
      with ⟨u, ev, e | _⟩
    · rw [hx] at hs'; cases hs'
    · obtain ⟨e, -, he⟩ := iterate_events _ hx
      exact ⟨u, _, .iter .start hx, by rw [he]; simp⟩

/-- The tuner of the example of C121, as the constructor makes it. -/
noncomputable def ignorantArgs : Args (Newton.State (Est 2) (Fin 2)) (Fin 2) :=
  ⟨["x"], ignorantTuner.solver, none, fun _ => none, none, none, false, none, none, 5, 0⟩

noncomputable def ignorantMade : OneTuner (Est 2) 2 :=
  { ignorantTuner with lastValues := [("x", none)], lastVariances := [("x", none)] }

example {eigh : Eigh} {nullspace : Nullspace} {lstsq : Newton.Lstsq (Fin 2)} :
    LearningInitial sampleSetup 1 3 (fun _ => ignorantEst) ignorantMade ∧
    construct (Newton.solver (kalmanI eigh nullspace) lstsq) ignorantArgs = .ok ignorantMade ∧
    ignorantArgs.lastValues = none ∧ ignorantArgs.lastVariances = none ∧ UniformColumns sampleSetup.target := by
  have hi := ignorantTuner_initial
  refine ⟨⟨hi.target, hi.ests, hi.static, hi.covariance, hi.limit, hi.eps, hi.value, hi.gates, hi.index, ?_, rfl, rfl⟩,
    ?_, rfl, rfl, ?_⟩
  · simp [ignorantMade, Series.index, sampleSetup, Setup.target, Target.names]
  · simp [construct, ignorantArgs, ignorantMade, ignorantTuner, Newton.solver, sampleSetup, Setup.target,
      Target.relevant, rowsComplete, Target.columns, Target.names]
  · intro col hcol
    simp [Target.columns] at hcol
    rcases hcol with rfl | rfl | rfl | rfl | rfl | rfl <;> simp [sampleSetup, Setup.target]

end Qtune.EndToEnd
