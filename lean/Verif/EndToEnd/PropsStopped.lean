import Verif.EndToEnd.StoppedRun
import Verif.EndToEnd.StoppedRel
import Verif.EndToEnd.StoppedTwice
import Verif.EndToEnd.PropsLimitedKnown
import Mathlib.Tactic.FinCases
import Verif.EndToEnd.PropsAtLimit

/-! # C212: a tuning that is interrupted can be completed -/

namespace Qtune.EndToEnd

open Qtune.Tuner Qtune.Gradient Qtune.Kalman Qtune.Autotuner

variable {n m : Nat}

/-- **C212**, Kalman estimators that begin with the gradients of the device: whatever calls of `iterate` were made, and wherever
they were interrupted, five more calls complete the tuning. -/
theorem stopped_tuning_is_tuned_kalman_partial {S : Setup n m} (hS : S.Valid) (hpos : ∀ y ∈ S.variances, 0 < y)
    {eigh : Eigh} (heigh : EighSpec eigh) {nullspace : Nullspace} (hnull : NullspaceSpec nullspace)
    {lstsq : Newton.Lstsq (Fin n)} (hl : Newton.LstsqSpec lstsq) (c : Vec n) {t : OneTuner (Est n) n} {l : ℝ}
    (hl0 : 0 < l) (ht : KalmanInitial S l t) (hmax : t.maxStep = none)
    (calls : List (Act (Volt (Fin n)) Unit)) (hcalls : OnlyIterates calls) :
    CompletesWithin S (kalmanI eigh nullspace) lstsq 5
      (Autotuner.acts (hierarchy (kalmanI eigh nullspace) lstsq S.outs) (fresh t (volts c)) calls).1 := by
  have hn : n ≠ 0 := by
    rintro rfl
    have := hS.independent.fintype_card_le_finrank
    simp at this
    exact hS.nonempty this
  obtain ⟨E, hests, hE⟩ := ht.ests
  have hbase : Base S (t.maxStep, t.maxNumber) E t :=
    ⟨ht.target, hests, ht.gates, ht.index, rfl, rfl, ht.queued, ht.lastIndex⟩
  have hup : ∀ k e, (Certain (fun i => S.grad k i / S.scale k) l e ∧ (e.value = none ∨ Measured (S.scaled k) e)) →
      ∀ q, ∀ y ∈ S.seen k, ∃ e', (kalmanI eigh nullspace).update (volts q) (some (S.scaled k q)) (some y) e = (e', .ok ()) ∧
        (Certain (fun i => S.grad k i / S.scale k) l e' ∧ Measured (S.scaled k) e') := by
    rintro k e ⟨h1, h2⟩ q y ⟨v, hv, rfl⟩
    exact certain_update hS.affine h1 h2 q (div_pos (hpos v hv) (mul_self_pos.2 (hS.scale k).2))
  have hle : ∀ k e, (Certain (fun i => S.grad k i / S.scale k) l e ∧ Measured (S.scaled k) e) →
      (Certain (fun i => S.grad k i / S.scale k) l e ∧ (e.value = none ∨ Measured (S.scaled k) e)) :=
    fun k e h => ⟨h.1, .inr h.2⟩
  have hA := kalman_keeps hS hn hpos heigh hnull hl0
  have hsafe : Safe S (t.maxStep, t.maxNumber)
      (fun k e => Certain (fun i => S.grad k i / S.scale k) l e ∧ (e.value = none ∨ Measured (S.scaled k) e))
      (fun k e => Certain (fun i => S.grad k i / S.scale k) l e ∧ Measured (S.scaled k) e) (fresh t (volts c)) :=
    ⟨E, c, rfl, .inl rfl, .inl ⟨rfl, rfl, hbase, hE⟩⟩
  exact (hsafe.acts hS hmax hl hA hup hle calls hcalls).completes hS hmax hl hA hup hle

/-- **C212**, finite difference estimators that have found the gradients. -/
theorem stopped_tuning_is_tuned_found_partial {S : Setup n m} (hS : S.Valid) (orth : Orth n)
    {lstsq : Newton.Lstsq (Fin n)} (hl : Newton.LstsqSpec lstsq) (c : Vec n) {t : OneTuner (FD n) n}
    (htarget : t.solver.target = S.target) {E : Fin m → FD n} (hests : t.solver.ests = List.ofFn E)
    (hE : ∀ k, (E k).pos ≠ none ∧ ∃ C, (E k).estimate = some (fun i => some (S.grad k i / S.scale k), C))
    (hgates : t.solver.gates = S.gates) (hindex : t.solver.values.index = S.target.names)
    (hlast : t.lastValues.index ⊆ S.target.names) (hqueued : t.queued = 0) (hmax : t.maxStep = none)
    (calls : List (Act (Volt (Fin n)) Unit)) (hcalls : OnlyIterates calls) :
    CompletesWithin S (fdI orth) lstsq 5 (Autotuner.acts (hierarchy (fdI orth) lstsq S.outs) (fresh t (volts c)) calls).1 := by
  have hbase : Base S (t.maxStep, t.maxNumber) E t :=
    ⟨htarget, hests, hgates, hindex, rfl, rfl, hqueued, hlast⟩
  have hA := fd_keeps S orth
  have hup : ∀ k e, Done (fun i => S.grad k i / S.scale k) e → ∀ q, ∀ y ∈ S.seen k,
      ∃ e', (fdI orth).update (volts q) (some (S.scaled k q)) (some y) e = (e', .ok ()) ∧ Done (fun i => S.grad k i / S.scale k) e' :=
    fun k e he q y hy => (hA k).update _ he q y hy
  have hsafe : Safe S (t.maxStep, t.maxNumber) (fun k => Done fun i => S.grad k i / S.scale k)
      (fun k => Done fun i => S.grad k i / S.scale k) (fresh t (volts c)) :=
    ⟨E, c, rfl, .inl rfl, .inl ⟨rfl, rfl, hbase, fun k => ⟨(hE k).1, (hE k).2⟩⟩⟩
  exact (hsafe.acts hS hmax hl hA hup (fun _ _ h => h) calls hcalls).completes hS hmax hl hA hup fun _ _ h => h

/-- What a finite difference estimator keeps of a request is only the list of requests, which it never reads. -/
theorem fd_repeatable (orth : Orth n) : Repeatable (fdI orth) fun e : FD n => { e with requested := [] } := by
  have hF : ∀ e e' : FD n, { e with requested := [] } = ({ e' with requested := [] } : FD n) → e' = { e with requested := e'.requested } := by
    rintro ⟨⟩ ⟨⟩ h
    simp only [FD.mk.injEq] at h ⊢
    simp_all
  refine ⟨fun e e' h => ?_, fun g J e e' h => ?_, fun g J e => ?_, fun v x y e e' h => ?_⟩
  · rw [hF e e' h]
    rfl
  · rw [hF e e' h]
    simp only [fdI, FD.require]
    rcases e.pos with _ | c
    · rfl
    rcases e.estimate with _ | E
    · simp only
      cases nextPoint orth g e.symmetric (e.stored.map fun m => restrict g m.1) <;> rfl
    · rfl
  · simp only [fdI, FD.require]
    rcases hp : e.pos with _ | c
    · simp [hp]
    rcases he : e.estimate with _ | E
    · simp only
      cases nextPoint orth g e.symmetric (e.stored.map fun m => restrict g m.1) <;> simp [hp, he]
    · simp [hp, he]
  · rw [hF e e' h]
    obtain ⟨pos, eps, sym, est, st, rq⟩ := e
    obtain ⟨_, _, _, _, _, rq'⟩ := e'
    rcases pos with _ | c
    · exact ⟨rfl, rfl⟩
    rcases est with _ | E
    · simp only [fdI, FD.update]
      by_cases h1 : sym = true ∧ (st ++ [((fun i => (v i).getD 0), x, y)]).length = 2 * n
      · simp only [if_pos h1]
        cases gradientOf (st ++ [((fun i => (v i).getD 0), x, y)]) <;> exact ⟨rfl, rfl⟩
      · simp only [if_neg h1]
        by_cases h2 : sym = false ∧ (st ++ [((fun i => (v i).getD 0), x, y)]).length = n + 1
        · simp only [if_pos h2]
          cases gradientOf (st ++ [((fun i => (v i).getD 0), x, y)]).reverse <;> exact ⟨rfl, rfl⟩
        · simp only [if_neg h2]
          exact ⟨trivial, trivial⟩
    · exact ⟨rfl, rfl⟩

/-- **C212**, finite difference estimators, with or without gradients, symmetric or not: if no call is interrupted between an
evaluation and its note, then one call more than without interruptions is enough, for every device and every tuner without a maximal
step size. -/
theorem stopped_tuning_completes_partial (S : Setup n m) (orth : Orth n) (lstsq : Newton.Lstsq (Fin n)) {x : Volt (Fin n)} {t : OneTuner (FD n) n}
    (hlen : t.solver.ests.length = t.solver.target.length) (hmax : t.maxStep = none)
    {N : Nat} (hN : CompletesWithin S (fdI orth) lstsq N (fresh t x))
    (calls : List (Act (Volt (Fin n)) Unit)) (hcalls : OnlyIterates calls)
    (hnoted : Noted (hierarchy (fdI orth) lstsq S.outs) (fresh t x) calls) :
    CompletesWithin S (fdI orth) lstsq (N + 1) (Autotuner.acts (hierarchy (fdI orth) lstsq S.outs) (fresh t x) calls).1 := by
  obtain ⟨s₂, h1, h2⟩ := Stands.acts (fd_repeatable orth) calls
    (s' := fresh t x) (s := fresh t x) ⟨⟨rfl, rfl, hlen, hmax⟩, .inl ⟨rfl, .inl rfl, rfl, rfl, rfl, rfl, rfl⟩⟩ hN hcalls hnoted
  exact h2.completes_add (fd_repeatable orth) h1

/-- A Kalman estimator that is told of the same evaluation a second time stays as it is. -/
theorem kalman_settled (eigh : Eigh) (nullspace : Nullspace) : Settled (kalmanI (n := n) eigh nullspace) := by
  refine ⟨fun _ _ _ => rfl, fun v x y e e' h => ?_⟩
  have key : ∀ e' : Est n, e'.value = some (x.getD 0) → e'.pos = v → e'.update v (x.getD 0) (y.getD 0) true = (e', .ok ()) := by
    intro e' h1 h2
    have hz : ∑ i, (((v i).sub (v i)).getD 0) ^ 2 = (0 : ℝ) := by
      refine Finset.sum_eq_zero fun i _ => ?_
      rcases v i with _ | a <;> simp [Val.sub]
    have hlt : Real.sqrt (∑ i, (((v i).sub (e'.pos i)).getD 0) ^ 2) < 1 / 10000000 := by
      rw [h2, hz]
      norm_num
    simp only [Est.update, h1, if_pos hlt, if_true]
    obtain ⟨_, _, _, _, _⟩ := e'
    simp only at h1 h2
    subst h1 h2
    rfl
  change e.update v (x.getD 0) (y.getD 0) true = (e', .ok ()) at h
  refine key e' ?_ (est_update_ok h).1
  unfold Est.update at h
  rcases hv : e.value with _ | v₀
  · simp only [hv, Prod.mk.injEq, and_true] at h
    rw [← h]
  · simp only [hv, if_true] at h
    split at h
    · simp only [Prod.mk.injEq, and_true] at h
      rw [← h]
    · split at h
      · simp at h
      · split at h
        · simp at h
        · simp only [Prod.mk.injEq, and_true] at h
          rw [← h]

/-- **C212**, Kalman estimators, that know the gradients or have to learn them: wherever the calls are interrupted, one call
more than without interruptions is enough, for every device and every tuner without a maximal step size. -/
theorem stopped_tuning_completes_kalman_partial (S : Setup n m) (eigh : Eigh) (nullspace : Nullspace) (lstsq : Newton.Lstsq (Fin n))
    {x : Volt (Fin n)} {t : OneTuner (Est n) n} (hlen : t.solver.ests.length = t.solver.target.length) (hmax : t.maxStep = none)
    {N : Nat} (hN : CompletesWithin S (kalmanI eigh nullspace) lstsq N (fresh t x))
    (calls : List (Act (Volt (Fin n)) Unit)) (hcalls : OnlyIterates calls) :
    CompletesWithin S (kalmanI eigh nullspace) lstsq (N + 1)
      (Autotuner.acts (hierarchy (kalmanI eigh nullspace) lstsq S.outs) (fresh t x) calls).1 := by
  have hI := kalman_settled (n := n) eigh nullspace
  obtain ⟨s₂, h1, h2⟩ := StandsFor.acts hI calls
    (s' := fresh t x) (s := fresh t x) (.inr ⟨⟨rfl, rfl, hlen, hmax⟩, .inl ⟨rfl, .inl rfl, rfl, rfl, rfl, rfl, rfl⟩⟩) hN hcalls
  exact h2.completes_add hI h1

/-- **C212**, affine devices, tuned from scratch with finite differences. -/
theorem stopped_tuning_is_tuned_partial {S : Setup n m} (hS : S.Valid) {orth : Orth n} (ho : OrthSpec orth)
    {lstsq : Newton.Lstsq (Fin n)} (hl : Newton.LstsqSpec lstsq) (c : Vec n) (t : OneTuner (FD n) n) {B : ℝ}
    (ht : Initial S c B t) (hmax : t.maxStep = none) (calls : List (Act (Volt (Fin n)) Unit)) (hcalls : OnlyIterates calls)
    (hnoted : Noted (hierarchy (fdI orth) lstsq S.outs) (fresh t (volts c)) calls) :
    CompletesWithin S (fdI orth) lstsq (3 * (n + 1) + 2) (Autotuner.acts (hierarchy (fdI orth) lstsq S.outs) (fresh t (volts c)) calls).1 := by
  refine stopped_tuning_completes_partial S orth lstsq ?_ hmax (affine_device_is_tuned hS ho hl c t ht hmax) calls hcalls hnoted
  obtain ⟨start, eps, -, -, hests⟩ := ht.ests
  rw [hests, ht.target]
  simp [Setup.target]

/-- **C212 is false for finite difference estimators that have yet to find the gradients**: for every affine device with one
gate and every start that does not meet the set point, one Ctrl-C in the first call of `iterate`, after the evaluation and before it is
noted, prevents the tuning for ever.  The next call measures at the same voltages again and raises an `EvaluationError`,
and from the third call on every call raises a `RuntimeError`. -/
theorem stopped_tuning_refuted {S : Setup 1 1} (hS : S.Valid) {c : Vec 1} (hnot : ¬ SetPointsMet S c)
    (orth : Orth 1) (lstsq : Newton.Lstsq (Fin 1)) {B : ℝ} {t : OneTuner (FD 1) 1} (ht : InitialWithin S c B t)
    {s : Autotuner.State (OneTuner (FD 1) 1) (Volt (Fin 1)) (Volt (Fin 1))}
    (hs : s = (Autotuner.acts (hierarchy (fdI orth) lstsq S.outs) (fresh t (volts c)) [.iterateStopped 1]).1) :
    (∀ N, isComplete (hierarchy (fdI orth) lstsq S.outs) (afterCalls (hierarchy (fdI orth) lstsq S.outs) N s) = false) ∧
    (iterate (hierarchy (fdI orth) lstsq S.outs) (.ok ()) s).2.2 = .error .evaluationError ∧
    ∀ N, (iterate (hierarchy (fdI orth) lstsq S.outs) (.ok ())
      (afterCalls (hierarchy (fdI orth) lstsq S.outs) (2 + N) s)).2.2 =
        .error (.runtimeError "Congratulations! You encountered a bug!") := by
  have hfin : ∀ i : Fin 1, i = 0 := fun i => Subsingleton.elim _ _
  set H := hierarchy (fdI orth) lstsq S.outs with hH
  obtain ⟨start, eps, hstart, heps, hests⟩ := ht.ests
  have heta : ∀ {Y : Type} (f : Fin 1 → Y), f = fun _ => f 0 := fun f => by
    funext i
    rw [hfin i]
  have hbase : Base S (t.maxStep, t.maxNumber) (fun _ => FD.new (start 0) (eps 0) false) t :=
    ⟨ht.target, by rw [hests, heta fun k => FD.new (start k) (eps k) false], ht.gates, ht.index, rfl, rfl, ht.queued, ht.lastIndex⟩
  have hsame : ∀ k : Fin 1, S.scaled k c = S.scaled 0 c := fun k => by rw [hfin k]
  -- the first evaluation
  have hfirst : ∀ y : ℝ, ∃ e', (fdI orth).update (volts c) (some (S.scaled 0 c)) (some y)
      (FD.new (start 0) (eps 0) false) = (e', .ok ()) ∧ AtOnePoint c (eps 0) 1 e' := by
    intro y
    have hv : (fun i => (volts c i).getD 0) = c := rfl
    change ∃ e', (FD.new (start 0) (eps 0) false).update (fun i => (volts c i).getD 0) _ _ = (e', .ok ()) ∧ _
    rw [hv]
    rcases hstart 0 with h0 | h0 <;> rw [h0]
    · exact ⟨_, rfl, rfl, rfl, rfl, rfl, rfl, by simp [FD.new]⟩
    · refine ⟨{ FD.new (some c) (eps 0) false with stored := [(c, some (S.scaled 0 c), some y)] }, ?_, rfl, rfl, rfl, rfl, rfl, by simp⟩
      simp [FD.update, FD.new]
  obtain ⟨y₁, t₁, b₁, hev₁, -, hAt₁, hb₁⟩ := evaluation (lstsq := lstsq) (I := fdI orth) hS.toSound hbase c
    (fun k y _ => by rw [hsame]; obtain ⟨e', he', -⟩ := hfirst y; exact ⟨e', he'⟩)
  have hb₁' : b₁ = false := by
    rw [← Bool.not_eq_true]
    exact fun h => hnot (hb₁.1 h)
  subst hb₁'
  obtain ⟨e₁, he₁, hp₁⟩ := hfirst (y₁ 0)
  rw [heta fun k => ((fdI orth).update (volts c) (some (S.scaled k c)) (some (y₁ k)) (FD.new (start 0) (eps 0) false)).1, he₁] at hAt₁
  -- the second raises
  have hsec : ∀ y : ℝ, ∃ e', (fdI orth).update (volts c) (some (S.scaled 0 c)) (some y) e₁ = (e', .error .evaluationError) ∧
      AtOnePoint c (eps 0) 2 e' := fun y => hp₁.second _ y
  choose e₃ he₃ hp₃ using hsec
  obtain ⟨y₂, t₃, hev₃, hbase₃⟩ := evaluation_error (lstsq := lstsq) (I := fdI orth) hS.toSound hAt₁.toBase c he₃
  -- the third does not
  obtain ⟨y₄, t₄, b₄, hev₄, -, hAt₄, hb₄⟩ := evaluation (lstsq := lstsq) (I := fdI orth) hS.toSound hbase₃ c
    (fun k y _ => by rw [hsame]; obtain ⟨e', he', -⟩ := (hp₃ y₂).third (S.scaled 0 c) y; exact ⟨e', he'⟩)
  have hb₄' : b₄ = false := by
    rw [← Bool.not_eq_true]
    exact fun h => hnot (hb₄.1 h)
  subst hb₄'
  obtain ⟨e₄, he₄, hp₄⟩ := (hp₃ y₂).third (S.scaled 0 c) (y₄ 0)
  have he₄' : (fdI orth).update (volts c) (some (S.scaled 0 c)) (some (y₄ 0)) (e₃ y₂) = (e₄, .ok ()) := he₄
  rw [heta fun k => ((fdI orth).update (volts c) (some (S.scaled k c)) (some (y₄ k)) (e₃ y₂)).1, he₄'] at hAt₄
  have hstuck := suggestion_error (I := fdI orth) (lstsq := lstsq) hS.toSound hAt₄
    (err := .runtimeError "Congratulations! You encountered a bug!") (by
      simp [fdI, hp₄.stuck orth S.gates, Except.map])
  -- the calls
  have h0 : s = ⟨t₁, volts c, 0, false, none⟩ := by
    rw [hs]
    simp [Autotuner.acts, Autotuner.act, stopAt, iterateTrace, fresh, hH, hierarchy, isComplete, hev₁]
  have h4 : iterate H (.ok ()) ⟨t₁, volts c, 0, false, none⟩ = (⟨t₃, volts c, 0, false, none⟩, (iterate H (.ok ()) ⟨t₁, volts c, 0, false, none⟩).2.1, .error .evaluationError) := by
    simp [iterate, hH, hierarchy, isComplete, hev₃]
  have h5 : iterate H (.ok ()) ⟨t₃, volts c, 0, false, none⟩ = (⟨t₄, volts c, 0, true, none⟩, (iterate H (.ok ()) ⟨t₃, volts c, 0, false, none⟩).2.1, .ok ()) := by
    simp [iterate, hH, hierarchy, isComplete, finish, hev₄]
  have h6 : iterate H (.ok ()) ⟨t₄, volts c, 0, true, none⟩ = (⟨t₄, volts c, 0, true, none⟩, (iterate H (.ok ()) ⟨t₄, volts c, 0, true, none⟩).2.1, .error (.runtimeError "Congratulations! You encountered a bug!")) := by
    simp [iterate, hH, hierarchy, isComplete, hstuck]
  have f4 := congrArg Prod.fst h4
  have f5 := congrArg Prod.fst h5
  have f6 := congrArg Prod.fst h6
  dsimp only at f4 f5 f6
  have hrest : ∀ N, afterCalls H N ⟨t₄, volts c, 0, true, none⟩ = ⟨t₄, volts c, 0, true, none⟩ := by
    intro N
    induction N with
    | zero => rfl
    | succ N ih =>
      unfold afterCalls
      rw [f6]
      exact ih
  have htwo : ∀ N, afterCalls H (2 + N) s = ⟨t₄, volts c, 0, true, none⟩ := by
    intro N
    rw [show 2 + N = N + 1 + 1 by omega, h0]
    simp only [afterCalls, f4, f5]
    exact hrest N
  refine ⟨?_, ?_, ?_⟩
  · intro N
    rcases Nat.lt_or_ge N 2 with hN | hN
    · obtain rfl | rfl : N = 0 ∨ N = 1 := by omega
      · rw [h0]
        rfl
      · rw [h0]
        simp only [afterCalls, f4]
        rfl
    · obtain ⟨k, rfl⟩ := Nat.exists_eq_add_of_le hN
      rw [htwo]
      rfl
  · rw [h0]
    exact congrArg (fun r => r.2.2) h4
  · intro N
    rw [htwo]
    exact congrArg (fun r => r.2.2) h6

/-! ### Cases that meet the hypotheses -/

/-- Five calls, of which the first is interrupted before the evaluation is noted, the third before the suggestion is, and the fifth is not. -/
example : OnlyIterates (n := 2) [.iterateStopped 1, .call (.iterate (.ok ())), .iterateStopped 1, .iterateStopped 2,
    .call (.iterate (.error .valueError))] := by
  intro a ha
  simp only [List.mem_cons, List.not_mem_nil, or_false] at ha
  rcases ha with rfl | rfl | rfl | rfl | rfl
  · exact .inr ⟨_, rfl⟩
  · exact .inl ⟨_, rfl⟩
  · exact .inr ⟨_, rfl⟩
  · exact .inr ⟨_, rfl⟩
  · exact .inl ⟨_, rfl⟩

example : { foundTuner with maxStep := none }.solver.target = sampleSetup.target ∧
    { foundTuner with maxStep := none }.solver.gates = sampleSetup.gates ∧
    { foundTuner with maxStep := none }.solver.values.index = sampleSetup.target.names ∧
    { foundTuner with maxStep := none }.solver.ests = List.ofFn fun _ : Fin 1 => ({ FD.new (some fun _ => 8) (fun _ => 1 / 2) false with
      estimate := some (fun i => some (sampleSetup.grad 0 i / sampleSetup.scale 0), none) } : FD 2) :=
  ⟨rfl, rfl, rfl, rfl⟩

example : KalmanInitial sampleSetup 1 { knownTuner with maxStep := none } ∧ (∀ y ∈ sampleSetup.variances, 0 < y) := by
  refine ⟨⟨rfl, ⟨fun _ => knownEst, rfl, fun k => ⟨⟨⟨rfl, rfl, rfl⟩, ?_, ?_, rfl, ?_⟩, .inl rfl⟩⟩, rfl, rfl,
    by simp [knownTuner, Series.index], rfl⟩, ?_⟩
  · funext i
    fin_cases i <;> simp [knownEst, Est.estimate, KG.grad, KG.new, sampleSetup] <;> norm_num
  · exact Matrix.PosSemidef.one.smul (by norm_num)
  · intro v hv
    have h : variance knownEst.cov v = 1 / 2 * ∑ i, v i ^ 2 := by
      simp [variance, Est.cov, knownEst, KG.new, Fin.sum_univ_two, Matrix.one_apply]
      ring
    rw [h, hv]
    norm_num
  · intro y hy
    rw [Set.mem_singleton_iff.1 hy]
    norm_num

/-- A tuning with five calls that are interrupted, none of them between an evaluation and its note: before the evaluation, after
the suggestion, before it is noted, and twice while voltages are set. -/
example (orth : Orth 2) (lstsq : Newton.Lstsq (Fin 2)) {t t₁ t₂ t₃ : OneTuner (FD 2) 2} {c p : Vec 2}
    (hev : isTuned (Newton.solver (fdI orth) lstsq) (sampleSetup.outs (volts c)) (volts c) t = (t₁, .ok false))
    (hn₁ : nextVoltages (Newton.solver (fdI orth) lstsq) [] t₁ = (t₂, .ok (volts p)))
    (hn₂ : nextVoltages (Newton.solver (fdI orth) lstsq) [] t₂ = (t₃, .ok (volts p))) :
    Noted (hierarchy (fdI orth) lstsq sampleSetup.outs) (fresh t (volts c))
      [.iterateStopped 0, .call (.iterate (.ok ())), .iterateStopped 1, .iterateStopped 2, .iterateStopped 1, .iterateStopped 2] := by
  simp [Noted, Autotuner.act, stopAt, iterateTrace, fresh, hierarchy, isComplete, step, iterate, finish, hev, hn₁, hn₂]

/-- Response 5 at voltage 2, rescaled `5/4`, is not within `1/10` of the set point 3. -/
example : ¬ SetPointsMet oneGateSetup (fun _ => 2) ∧ InitialWithin oneGateSetup (fun _ => 2) (1 / 2) oneGateTuner := by
  refine ⟨fun h => ?_, rfl, ⟨fun _ => none, fun _ _ => 1 / 2, fun _ => .inl rfl, fun _ _ => by norm_num, rfl⟩, rfl, rfl,
    by simp [oneGateTuner, Series.index], rfl⟩
  have := h 0 (1 / 10) rfl
  simp [oneGateSetup] at this
  rw [abs_lt] at this
  norm_num at this

end Qtune.EndToEnd
