import Verif.EndToEnd.Phases
import Verif.Newton.Exists

/-!
# Cycles of suggestion, setting of voltages and evaluation

For estimators of any kind; `Keeps` says what is needed of them once their gradients are known.
-/

namespace Qtune.EndToEnd

open Qtune.Tuner Qtune.Gradient Qtune.Autotuner

variable {n m : Nat} {X : Type}

/-- `N` successful calls of `iterate`; an exception ends the sequence. -/
def iterates {W X V P C : Type} (H : Hierarchy W X V P C) :
    Nat → Autotuner.State W X V → Except PyErr (Autotuner.State W X V)
  | 0, s => .ok s
  | N + 1, s =>
    match iterate H (.ok ()) s with
    | (_, _, .error e) => .error e
    | (s', _, .ok ()) => iterates H N s'

theorem iterates_add {W X V P C : Type} (H : Hierarchy W X V P C) (M N : Nat)
    (s s' : Autotuner.State W X V) (h : iterates H M s = .ok s') :
    iterates H (M + N) s = iterates H N s' := by
  induction M generalizing s with
  | zero => cases h; rw [Nat.zero_add]
  | succ M ih =>
    rw [Nat.add_right_comm, iterates]
    rw [iterates] at h
    rcases hi : iterate H (.ok ()) s with ⟨s₁, ev, _ | _⟩
    · rw [hi] at h; cases h
    · rw [hi] at h
      exact ih s₁ h

/-- All set points are met at `q` within the tolerances. -/
def SetPointsMet (S : Setup n m) (q : Vec n) : Prop :=
  ∀ k tol, (S.row k).tolerance = some tol → |S.desired k - S.response k q / S.scale k| < tol

/-- The tuning is complete within `N` calls, the voltages then meet the set points. -/
def CompletesWithin (S : Setup n m) (I : Newton.EstI X (Fin n)) (lstsq : Newton.Lstsq (Fin n)) (N : Nat)
    (s : Autotuner.State (OneTuner X n) (Volt (Fin n)) (Volt (Fin n))) : Prop :=
  ∃ M ≤ N, ∃ s', iterates (hierarchy I lstsq S.outs) M s = .ok s' ∧
    isComplete (hierarchy I lstsq S.outs) s' = true ∧
    ∃ q : Vec n, s'.expt = volts q ∧ SetPointsMet S q

/-- Suggestion, setting the voltages and evaluation. -/
theorem cycle {S : Setup n m} {I : Newton.EstI X (Fin n)} {lstsq : Newton.Lstsq (Fin n)} {t t' t'' : OneTuner X n}
    {q q' : Vec n} {b : Bool}
    (hnext : nextVoltages (Newton.solver I lstsq) [] t = (t', .ok (volts q')))
    (hev : isTuned (Newton.solver I lstsq) (S.outs (volts q')) (volts q') t' =
      (t'', .ok b)) :
    iterates (hierarchy I lstsq S.outs) 3 ⟨t, volts q, 0, true, none⟩ =
      .ok ⟨t'', volts q', if b then 1 else 0, !b, none⟩ := by
  let H := hierarchy I lstsq S.outs
  have h1 : (iterate H (.ok ()) ⟨t, volts q, 0, true, none⟩).1 =
      ⟨t', volts q, 0, false, some (volts q')⟩ ∧
      (iterate H (.ok ()) ⟨t, volts q, 0, true, none⟩).2.2 = .ok () := by
    have hn : H.nextVolt 0 (H.tunedParams t 0) t = (t', .ok (volts q')) := hnext
    simp [iterate, H, hierarchy, isComplete, hnext, finish]
  have h2 : (iterate H (.ok ()) ⟨t', volts q, 0, false, some (volts q')⟩).1 =
      ⟨t', volts q', 0, false, none⟩ ∧
      (iterate H (.ok ()) ⟨t', volts q, 0, false, some (volts q')⟩).2.2 = .ok () := by
    simp [iterate, H, hierarchy, isComplete, finish, volts]
  have h3 : (iterate H (.ok ()) ⟨t', volts q', 0, false, none⟩).1 =
      ⟨t'', volts q', if b then 1 else 0, !b, none⟩ ∧
      (iterate H (.ok ()) ⟨t', volts q', 0, false, none⟩).2.2 = .ok () := by
    cases b <;> simp [iterate, H, hierarchy, isComplete, finish, hev]
  have step : ∀ (N : Nat) (s s' : Autotuner.State (OneTuner X n) (Volt (Fin n)) (Volt (Fin n))),
      (iterate H (.ok ()) s).1 = s' ∧ (iterate H (.ok ()) s).2.2 = .ok () →
      iterates H (N + 1) s = iterates H N s' := by
    rintro N s s' ⟨ha, hb⟩
    conv_lhs => unfold iterates
    rcases hi : iterate H (.ok ()) s with ⟨s₁, ev, r⟩
    rw [hi] at ha hb
    simp only at ha hb
    subst ha hb
    rfl
  rw [step 2 _ _ h1, step 1 _ _ h2, step 0 _ _ h3]
  rfl

/-- One cycle either completes the tuning or leads to the next state. -/
theorem cycle_or {S : Setup n m} (hS : S.Sound) {μ : Val × Int} {I : Newton.EstI X (Fin n)} {lstsq : Newton.Lstsq (Fin n)}
    {t t' : OneTuner X n} {E' : Fin m → X} {q q' : Vec n}
    (hnext : nextVoltages (Newton.solver I lstsq) [] t = (t', .ok (volts q')))
    (hbase : Base S μ E' t')
    (hupd : ∀ k, ∀ y ∈ S.seen k,
      ∃ e', I.update (volts q') (some (S.scaled k q')) (some y) (E' k) = (e', .ok ()))
    (N : Nat)
    (hcont : ∀ (y : Fin m → ℝ) (t'' : OneTuner X n), (∀ k, y k ∈ S.seen k) → ¬ SetPointsMet S q' →
      At S μ (fun k => (I.update (volts q') (some (S.scaled k q')) (some (y k)) (E' k)).1) q' t'' →
      CompletesWithin S I lstsq N ⟨t'', volts q', 0, true, none⟩) :
    CompletesWithin S I lstsq (3 + N) ⟨t, volts q, 0, true, none⟩ := by
  obtain ⟨y, t'', b, hev, hy, hAt, hb⟩ := evaluation hS (I := I) (lstsq := lstsq) hbase q' hupd
  have hrun := cycle (q := q) hnext hev
  cases b with
  | true =>
    refine ⟨3, by omega, _, hrun, rfl, q', rfl, ?_⟩
    exact hb.1 rfl
  | false =>
    obtain ⟨M, hM, s', hs', hc⟩ := hcont y t'' hy (fun hm => by
      have := hb.2 hm
      cases this) hAt
    refine ⟨3 + M, by omega, s', ?_, hc⟩
    rw [iterates_add _ 3 M _ _ hrun]
    exact hs'

theorem Setup.scaled_eq (S : Setup n m) (k : Fin m) (q : Vec n) :
    S.scaled k q = S.response k q / S.scale k := rfl

/-- Estimators in the states `A` know the gradient `g` of the response `f` of parameter `k`, request nothing
and stay in these states when they are updated with exact values. -/
structure Keeps (S : Setup n m) (I : Newton.EstI X (Fin n)) (k : Fin m) (A : X → Prop) : Prop where
  silent : ∀ e, A e → ∀ tj, I.require S.gates tj e = (e, .ok none)
  gradient : ∀ e, A e → I.estimate e = some fun i => some (S.grad k i / S.scale k)
  update : ∀ e, A e → ∀ q, ∀ y ∈ S.seen k,
    ∃ e', I.update (volts q) (some (S.scaled k q)) (some y) e = (e', .ok ()) ∧ A e'

/-- A Newton step does not depend on the position. -/
theorem newton_shift {E ι : Type} [DecidableEq ι] {I : Newton.EstI E ι} {lstsq : Newton.Lstsq ι} {s : Newton.State E ι}
    {p x : ι → ℝ} {k : Nat} {G : Fin k → ι → ℝ} (hpos : s.pos = fun i => some (p i))
    (hquiet : ∀ re ∈ s.target.zip s.ests, re.1.desired ≠ none →
      ∀ tj, I.require s.gates tj re.2 = (re.2, .ok none)) (hsize : s.target.length = k)
    (hgr : s.ests.map I.estimate = List.ofFn fun k => some fun i => some (G k i)) {tuned : List String}
    (h : Newton.suggest I lstsq tuned s =
      (s, .ok fun i => if i ∈ s.gates then some (some (p i + x i)) else none))
    (p' : ι → ℝ) :
    Newton.suggest I lstsq tuned { s with pos := fun i => some (p' i) } =
      ({ s with pos := fun i => some (p' i) },
        .ok fun i => if i ∈ s.gates then some (some (p' i + x i)) else none) := by
  obtain ⟨T, ests, gates, pos, values⟩ := s
  simp only at hpos hquiet hsize hgr h ⊢
  have hlen : ests.length = T.length := by
    have := congrArg List.length hgr
    simp at this
    omega
  have hsnd : (T.zip ests).map Prod.snd = ests := List.map_snd_zip (by omega)
  have htj' : Newton.tunedJacobian I tuned ⟨T, ests, gates, fun i => some (p' i), values⟩ =
      Newton.tunedJacobian I tuned ⟨T, ests, gates, pos, values⟩ := rfl
  unfold Newton.suggest at h ⊢
  rw [htj']
  rcases htj : Newton.tunedJacobian I tuned ⟨T, ests, gates, pos, values⟩ with err | tj
  · rw [htj] at h; cases h
  · rw [htj] at h
    have hask := Newton.ask_none I gates tj (T.zip ests) (fun re hre hd => hquiet re hre hd tj)
    simp only [hask, hsnd] at h ⊢
    unfold Newton.newtonStep at h ⊢
    simp only at h ⊢
    rcases hc : Newton.concat (ests.map I.estimate) with err | rows
    · rw [hc] at h; simp at h
    · rw [hc] at h
      simp only at h ⊢
      split_ifs at h ⊢ with hl
      · simp at h
      · rcases hs : lstsq gates rows (T.map fun r => Newton.requiredDiff r.desired (values.val r.name))
          with _ | step
        · rw [hs] at h; simp at h
        · rw [hs] at h
          rw [hs]
          simp only [Prod.mk.injEq, true_and, Except.ok.injEq] at h ⊢
          funext i
          have hi := congrFun h i
          by_cases hg : i ∈ gates
          · rw [if_pos hg, if_pos hg, hpos, Option.some.injEq] at hi
            rw [if_pos hg, if_pos hg]
            rcases hst : step i with _ | y
            · rw [hst] at hi; simp at hi
            · rw [hst] at hi
              simp at hi ⊢
              exact hi
          · rw [if_neg hg, if_neg hg]

/-- All gradients are known: the suggestion is the shortest step to the set points. -/
theorem newton_suggestion {S : Setup n m} (hS : S.Valid) {μ : Val × Int} {I : Newton.EstI X (Fin n)}
    {lstsq : Newton.Lstsq (Fin n)} (hl : Newton.LstsqSpec lstsq) {E : Fin m → X} {q : Vec n}
    {t : OneTuner X n} (h : At S μ E q t)
    {A : Fin m → X → Prop} (hA : ∀ k, Keeps S I k (A k)) (hdone : ∀ k, A k (E k)) :
    ∃ x : Vec n, Newton.suggest I lstsq [] t.solver =
        ({ t.solver with ests := List.ofFn E }, .ok fun i => some (some ((q + x) i))) ∧
      (∀ q' : Vec n, Newton.suggest I lstsq [] { t.solver with pos := volts q' } =
        ({ t.solver with pos := volts q' }, .ok fun i => some (some ((q' + x) i)))) ∧
      (∀ k, S.scaled k (q + x) = S.desired k) ∧
      ∀ y : Vec n, (∀ k, S.scaled k y = S.desired k) → len x ≤ len (y - q) := by
  let G : Fin m → Fin n → ℝ := fun k i => S.grad k i / S.scale k
  have hready : Newton.Ready I t.solver q G := by
    refine ⟨by rw [h.target]; simp [Setup.target], h.pos, ?_, ?_, ?_⟩
    · intro re hre _ tj
      have hmem := (List.of_mem_zip hre).2
      rw [h.ests] at hmem
      obtain ⟨k, hk⟩ := (List.mem_ofFn' _ _).1 hmem
      rw [← hk]
      rw [h.gates]
      exact (hA k).silent _ (hdone k) tj
    · rw [h.ests, List.map_ofFn]
      congr 1
      funext k
      exact (hA k).gradient _ (hdone k)
    · unfold Newton.FullRowRank
      rw [h.gates]
      have h1 : LinearIndependent ℝ G := by
        have := hS.independent.units_smul (fun k => Units.mk0 (S.scale k)⁻¹ (inv_ne_zero (hS.scale k).2))
        convert this using 1
        funext k i
        simp [G, Units.smul_def]
        ring
      let L : (Fin n → ℝ) →ₗ[ℝ] ({i // i ∈ S.gates} → ℝ) :=
        { toFun := fun w i => w i.1
          map_add' := fun _ _ => rfl
          map_smul' := fun _ _ => rfl }
      refine h1.map' L (LinearMap.ker_eq_bot.2 ?_)
      intro w w' hw
      funext i
      exact congrFun hw ⟨i, hS.gates_all i⟩
  obtain ⟨x, hsug, hx, hshort⟩ := Newton.newton_step_meets_set_points hl hready hS.nonempty []
    (fun k => S.scaled k q) S.desired (by
      intro k r hr
      have : r = S.row k := by
        have hr' : t.solver.target[k.1]? = some r := hr
        rw [h.target] at hr'
        simp [Setup.target] at hr'
        exact hr'.symm
      subst this
      refine ⟨hS.desired k, ?_⟩
      rw [h.values]
      exact Setup.val_ofFn hS.toSound (fun k => some (S.scaled k q)) k)
  have hgates : t.solver.gates.toFinset = Finset.univ := by
    rw [h.gates]
    ext i
    simp [hS.gates_all i]
  have hchange : ∀ k (z : Vec n), S.scaled k q + Newton.change t.solver.gates (G k) z =
      S.scaled k (q + z) := by
    intro k z
    have haff := (Setup.scaled_affine hS.affine k).sub (q + z) q
    unfold Newton.change
    rw [hgates]
    simp only [add_sub_cancel_left] at haff
    have e : (∑ i, G k i * z i) = ∑ i, S.grad k i / S.scale k * z i := rfl
    rw [e]
    linarith
  refine ⟨x, ?_, fun q' => ?_, fun k => by rw [← hchange]; exact hx k, ?_⟩
  · rw [hsug]
    congr 1
    · have := h.ests
      rcases t with ⟨⟨T, es, gs, ps, vs⟩, _, _, _, _, _, _, _, _, _⟩
      simp only at this ⊢
      rw [this]
    · congr 1
      funext i
      rw [if_pos (by rw [h.gates]; exact hS.gates_all i)]
      rfl
  · refine (newton_shift hready.pos hready.quiet hready.size hready.gradients hsug q').trans ?_
    congr 2
    funext i
    rw [if_pos (by rw [h.gates]; exact hS.gates_all i)]
    rfl
  · intro y hy
    have := hshort (y - q) fun k => by rw [hchange, add_sub_cancel]; exact hy k
    unfold Newton.lengthSq at this
    rw [hgates] at this
    exact Real.sqrt_le_sqrt this

/-- When all gradients are known one Newton step is enough, unless it is too long. -/
theorem newton_phase {S : Setup n m} (hS : S.Valid) {μ : Val × Int} {I : Newton.EstI X (Fin n)}
    {lstsq : Newton.Lstsq (Fin n)} {E : Fin m → X} {q x : Vec n} {t : OneTuner X n} (h : At S μ E q t)
    {A : Fin m → X → Prop} (hA : ∀ k, Keeps S I k (A k)) (hdone : ∀ k, A k (E k))
    (hsug : Newton.suggest I lstsq [] t.solver =
      ({ t.solver with ests := List.ofFn E }, .ok fun i => some (some ((q + x) i))))
    (hx : ∀ k, S.scaled k (q + x) = S.desired k) (hμ : ∀ M, μ.1 = some M → len x ≤ M) :
    CompletesWithin S I lstsq 3 ⟨t, volts q, 0, true, none⟩ := by
  obtain ⟨t', hnext, hbase⟩ := suggestion (E' := E) (q' := q + x) h (by simpa using hμ) hsug
  refine cycle_or hS.toSound hnext hbase ?_ 0 ?_
  · intro k y hy
    obtain ⟨e', he', -⟩ := (hA k).update _ (hdone k) (q + x) y hy
    exact ⟨e', he'⟩
  · intro y t'' _ hnot _
    exfalso
    apply hnot
    intro k tol htol
    rw [← Setup.scaled_eq, hx k, sub_self, abs_zero]
    exact hS.tolerance k tol htol

/-- The tuner `t` is at `q`, on its way from the last evaluation, after which it was `t₀`. -/
structure Way (t₀ : OneTuner X n) (q : Vec n) (t : OneTuner X n) : Prop where
  solver : t.solver = { t₀.solver with pos := volts q }
  lastVoltage : t.lastVoltage = volts q
  lastFailed : t.lastFailed = false
  maxStep : t.maxStep = t₀.maxStep
  maxNumber : t.maxNumber = t₀.maxNumber
  lastValues : t.lastValues = t₀.lastValues

open Classical in
/-- The number of slices that are left. -/
noncomputable def left (L M : ℝ) (t : OneTuner X n) : Int :=
  if t.queued = 0 then min (toInt (L / M)) t.maxNumber else t.queued

/-- One slice of the step `x`. -/
theorem way_next {I : Newton.EstI X (Fin n)} {lstsq : Newton.Lstsq (Fin n)} {t₀ t : OneTuner X n} {q x : Vec n} {M : ℝ}
    (hM : 0 < M) (hmax : t₀.maxStep = some M) (hlong : M < len x)
    (hshift : ∀ q' : Vec n, Newton.suggest I lstsq [] { t₀.solver with pos := volts q' } =
      ({ t₀.solver with pos := volts q' }, .ok fun i => some (some ((q' + x) i))))
    (h : Way t₀ q t) :
    nextVoltages (Newton.solver I lstsq) [] t =
      ({ t with queued := left (len x) M t - 1 }, .ok (volts (q + (M / len x) • x))) := by
  have hs : (Newton.solver I lstsq).suggest [] t.solver =
      (t.solver, .ok fun i => some (some ((q + x) i))) := by
    change Newton.suggest I lstsq [] t.solver = _
    rw [h.solver]
    exact hshift q
  have hstep : vsub (overlay (volts q) fun i => some (some ((q + x) i))) (volts q) = volts x := by
    funext i
    simp [vsub, overlay, volts]
  have hslice : slice (some M) t.maxNumber t.queued (volts x) =
      .ok (left (len x) M t - 1, volts ((M / len x) • x)) := by
    unfold slice
    rw [norm_volts]
    simp only
    rw [if_pos hlong, if_neg (by rintro ⟨-, h0⟩; exact hM.ne' h0)]
    congr 2
  unfold nextVoltages
  simp only [h.lastFailed, Bool.false_eq_true, if_false, hs, h.lastVoltage, h.maxStep, hmax, hstep, hslice]
  congr 2

/-- The rest of the way, `j + 1` slices, and the evaluation at the end. -/
theorem way_phase {S : Setup n m} (hS : S.Valid) {I : Newton.EstI X (Fin n)} {lstsq : Newton.Lstsq (Fin n)}
    {μ : Val × Int} {E : Fin m → X} {q₀ x : Vec n} {t₀ : OneTuner X n} (h₀ : At S μ E q₀ t₀)
    {A : Fin m → X → Prop} (hA : ∀ k, Keeps S I k (A k)) (hdone : ∀ k, A k (E k)) {M : ℝ} (hM : 0 < M)
    (hmax : t₀.maxStep = some M) (hlong : M < len x)
    (hshift : ∀ q' : Vec n, Newton.suggest I lstsq [] { t₀.solver with pos := volts q' } =
      ({ t₀.solver with pos := volts q' }, .ok fun i => some (some ((q' + x) i)))) (N : Nat) :
    ∀ (j : Nat) (q : Vec n) (t : OneTuner X n), Way t₀ q t → left (len x) M t = j + 1 →
      (∀ (E' : Fin m → X) (t'' : OneTuner X n), (∀ k, A k (E' k)) →
        At S μ E' (q + ((j + 1 : ℝ) * (M / len x)) • x) t'' →
        CompletesWithin S I lstsq N
          ⟨t'', volts (q + ((j + 1 : ℝ) * (M / len x)) • x), 0, true, none⟩) →
      CompletesWithin S I lstsq (3 * (j + 1) + N) ⟨t, volts q, 0, true, none⟩ := by
  intro j
  induction j with
  | zero =>
    intro q t h hleft hcont
    have hnext := way_next (I := I) (lstsq := lstsq) hM hmax hlong hshift h
    rw [hleft] at hnext
    have hb : Base S μ E { t with queued := ((0 : Nat) : Int) + 1 - 1 } := by
      refine ⟨?_, ?_, ?_, ?_, ?_, ?_, by simp, ?_⟩
      · simp only [h.solver]; exact h₀.target
      · simp only [h.solver]; exact h₀.ests
      · simp only [h.solver]; exact h₀.gates
      · simp only [h.solver]; exact h₀.index
      · exact h.maxStep.trans h₀.maxStep
      · exact h.maxNumber.trans h₀.maxNumber
      · simp only [h.lastValues]; exact h₀.lastIndex
    have hupd : ∀ k, ∀ y ∈ S.seen k, ∃ e', I.update (volts (q + (M / len x) • x))
        (some (S.scaled k (q + (M / len x) • x))) (some y) (E k) = (e', .ok ()) ∧ A k e' :=
      fun k y hy => (hA k).update _ (hdone k) _ y hy
    have := cycle_or hS.toSound (q := q) hnext hb (fun k y hy => by
      obtain ⟨e', he', -⟩ := hupd k y hy
      exact ⟨e', he'⟩) N (by
      intro y t'' hy _ hAt
      have hq : q + ((((0 : Nat) : ℝ) + 1) * (M / len x)) • x = q + (M / len x) • x := by simp
      have := hcont (fun k => (I.update (volts (q + (M / len x) • x))
        (some (S.scaled k (q + (M / len x) • x))) (some (y k)) (E k)).1) t'' (fun k => by
        obtain ⟨e', he', hA'⟩ := hupd k (y k) (hy k)
        rw [he']
        exact hA') (by rw [hq]; exact hAt)
      rw [hq] at this
      exact this)
    simpa using this
  | succ j ih =>
    intro q t h hleft hcont
    have hnext := way_next (I := I) (lstsq := lstsq) hM hmax hlong hshift h
    rw [hleft] at hnext
    have hq : (((j + 1 : Nat) : Int) + 1 - 1) = (j : Int) + 1 := by push_cast; ring
    rw [hq] at hnext
    let q' : Vec n := q + (M / len x) • x
    let t'' : OneTuner X n := { t with
      queued := (j : Int) + 1
      lastVoltage := volts q'
      solver := { t.solver with pos := volts q' } }
    have hev : isTuned (Newton.solver I lstsq) (S.outs (volts q')) (volts q')
        { t with queued := (j : Int) + 1 } = (t'', .ok false) := by
      unfold isTuned
      simp only
      rw [if_pos (by omega)]
      rfl
    have hrun := cycle (q := q) hnext hev
    have hway : Way t₀ q' t'' := by
      refine ⟨?_, rfl, h.lastFailed, h.maxStep, h.maxNumber, h.lastValues⟩
      simp only [t'', h.solver]
    have hleft' : left (len x) M t'' = j + 1 := by
      unfold left
      rw [if_neg (by simp only [t'']; omega)]
    have hend : q' + ((j + 1 : ℝ) * (M / len x)) • x =
        q + ((((j + 1 : Nat) : ℝ) + 1) * (M / len x)) • x := by
      simp only [q']
      push_cast
      rw [add_assoc, ← add_smul]
      congr 2
      ring
    obtain ⟨K, hK, s', hs', hc⟩ := ih q' t'' hway hleft' (by rw [hend]; exact hcont)
    refine ⟨3 + K, by omega, s', ?_, hc⟩
    rw [iterates_add _ 3 K _ _ hrun]
    exact hs'

theorem toInt_div {L M : ℝ} (hM : 0 < M) (h : M < L) : toInt (L / M) = ((⌊L / M⌋₊ : Nat) : Int) ∧
    1 ≤ ⌊L / M⌋₊ := by
  have h1 : 1 < L / M := (one_lt_div hM).2 h
  constructor
  · unfold toInt
    rw [if_pos (by linarith), Int.natCast_floor_eq_floor (by linarith)]
  · exact Nat.le_floor (by simpa using h1.le)

/-- All gradients are known, a point that meets the set points is at a distance of at most `D`. -/
theorem newton_phase_limited {S : Setup n m} (hS : S.Valid) {I : Newton.EstI X (Fin n)} {lstsq : Newton.Lstsq (Fin n)}
    (hl : Newton.LstsqSpec lstsq) {M : ℝ} (hM : 0 < M) {ν : Int} (hν : 1 ≤ ν)
    {A : Fin m → X → Prop} (hA : ∀ k, Keeps S I k (A k)) :
    ∀ (F : Nat) (D : ℝ) (E : Fin m → X) (q y : Vec n) (t : OneTuner X n), (∀ k, A k (E k)) →
      ⌊D / M⌋₊ ≤ F → At S (some M, ν) E q t →
      (∀ k, S.scaled k y = S.desired k) → len (y - q) ≤ D →
      CompletesWithin S I lstsq (3 * (F + 1)) ⟨t, volts q, 0, true, none⟩ := by
  intro F
  induction F using Nat.strong_induction_on with
  | _ F ih =>
  intro D E q y t hdone hF h hy hD
  obtain ⟨x, hsug, hshift, hx, hshort⟩ := newton_suggestion hS (I := I) hl h hA hdone
  have hLD : len x ≤ D := (hshort y hy).trans hD
  by_cases hlong : M < len x
  · obtain ⟨hint, hone⟩ := toInt_div hM hlong
    have hk : ∃ j : Nat, (j : Int) + 1 = min (toInt (len x / M)) ν := by
      refine ⟨(min (toInt (len x / M)) ν - 1).toNat, ?_⟩
      rw [hint]
      omega
    obtain ⟨j, hj⟩ := hk
    have hjF : (j : Int) + 1 ≤ (⌊len x / M⌋₊ : Nat) := by
      rw [hj, hint]; exact min_le_left _ _
    have hjF' : j + 1 ≤ ⌊len x / M⌋₊ := by exact_mod_cast hjF
    have hfl : ⌊len x / M⌋₊ ≤ ⌊D / M⌋₊ := Nat.floor_le_floor (by gcongr)
    have hL : 0 < len x := lt_trans hM hlong
    have hjL : ((j + 1 : ℝ)) * M ≤ len x := by
      have := Nat.floor_le (a := len x / M) (by positivity)
      have h2 : ((j + 1 : Nat) : ℝ) ≤ (⌊len x / M⌋₊ : ℝ) := by exact_mod_cast hjF'
      have h3 : ((j + 1 : Nat) : ℝ) ≤ len x / M := h2.trans this
      rw [le_div_iff₀ hM] at h3
      push_cast at h3
      exact h3
    have hway : Way t q t := ⟨by
      have := h.pos
      rcases t with ⟨⟨_, _, _, _, _⟩, _, _, _, _, _, _, _, _, _⟩
      simp only at this ⊢
      rw [this], h.lastVoltage, h.lastFailed, rfl, rfl, rfl⟩
    have hleft : left (len x) M t = j + 1 := by
      unfold left
      rw [if_pos h.queued, h.maxNumber, hj]
    obtain ⟨G, hG⟩ : ∃ G, G = F - (j + 1) := ⟨_, rfl⟩
    have := way_phase hS (lstsq := lstsq) (I := I) h hA hdone hM h.maxStep hlong hshift (3 * (G + 1)) j q
      t hway hleft (by
        intro E' t'' hdone' hAt
        -- the end of the full step is a solution that is closer now
        refine ih G (by omega) (len x - (j + 1) * M) E' _ (q + x) t'' hdone' ?_ hAt hx ?_
        · have h1 : (len x - (j + 1) * M) / M = len x / M - ((j + 1 : Nat) : ℝ) := by
            push_cast
            field_simp
          rw [h1, Nat.floor_sub_natCast]
          omega
        · have h1 : q + x - (q + ((j + 1 : ℝ) * (M / len x)) • x) =
              (1 - (j + 1 : ℝ) * (M / len x)) • x := by
            rw [sub_smul, one_smul]
            abel
          rw [h1, len_smul, abs_of_nonneg]
          · rw [sub_mul, one_mul]
            field_simp
            exact le_refl _
          · rw [sub_nonneg, ← mul_div_assoc, div_le_one hL]
            exact hjL)
    obtain ⟨K, hK, hc⟩ := this
    exact ⟨K, by omega, hc⟩
  · obtain ⟨K, hK, hc⟩ := newton_phase hS h hA hdone hsug hx (by
      intro M' hM'
      simp only [Option.some.injEq] at hM'
      rw [← hM']
      exact not_lt.1 hlong)
    exact ⟨K, by omega, hc⟩

end Qtune.EndToEnd
