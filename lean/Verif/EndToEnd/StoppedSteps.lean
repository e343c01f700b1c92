import Verif.EndToEnd.StoppedRun
import Verif.EndToEnd.StoppedRel
import Verif.EndToEnd.PropsAtLimit

/-! # Interrupted calls, when the gradients are known and steps are limited -/

namespace Qtune.EndToEnd

open Qtune.Tuner Qtune.Gradient Qtune.Autotuner

variable {n m : Nat} {X : Type}

/-- The tuner makes slices of a step `x` that was found after an evaluation.  The number of queued slices is of no importance. -/
def Underway (S : Setup n m) (μ : Val × Int) (M : ℝ) (I : Newton.EstI X (Fin n)) (lstsq : Newton.Lstsq (Fin n)) (A : Fin m → X → Prop)
    (t : OneTuner X n) : Prop :=
  ∃ (E : Fin m → X) (q₀ x p : Vec n) (t₀ : OneTuner X n), At S μ E q₀ t₀ ∧ (∀ k, A k (E k)) ∧ M < len x ∧
    (∀ q' : Vec n, Newton.suggest I lstsq [] { t₀.solver with pos := volts q' } =
      ({ t₀.solver with pos := volts q' }, .ok fun i => some (some ((q' + x) i)))) ∧
    (∀ k, S.scaled k (q₀ + x) = S.desired k) ∧ Way t₀ p t ∧ 0 ≤ t.queued

/-- The tuner can make a suggestion. -/
def Going (S : Setup n m) (μ : Val × Int) (M : ℝ) (I : Newton.EstI X (Fin n)) (lstsq : Newton.Lstsq (Fin n)) (A : Fin m → X → Prop)
    (t : OneTuner X n) : Prop := (∃ E p, At S μ E p t ∧ ∀ k, A k (E k)) ∨ Underway S μ M I lstsq A t

/-- The tuner can be asked whether it is tuned.  The last voltage is of no importance then. -/
def Asked (S : Setup n m) (μ : Val × Int) (M : ℝ) (I : Newton.EstI X (Fin n)) (lstsq : Newton.Lstsq (Fin n)) (A₀ A : Fin m → X → Prop)
    (t : OneTuner X n) : Prop := (∃ E, Base S μ E t ∧ ∀ k, A₀ k (E k)) ∨
  ((∃ v, Underway S μ M I lstsq A { t with lastVoltage := v }) ∧ 0 < t.queued)

/-- The states in which a tuning with known gradients can be left by interrupted calls. -/
def SafeSteps (S : Setup n m) (μ : Val × Int) (M : ℝ) (I : Newton.EstI X (Fin n)) (lstsq : Newton.Lstsq (Fin n)) (A₀ A : Fin m → X → Prop)
    (s : Autotuner.State (OneTuner X n) (Volt (Fin n)) (Volt (Fin n))) : Prop :=
  ∃ q : Vec n, s.expt = volts q ∧ (s.pending = none ∨ ∃ p : Vec n, s.pending = some (volts p)) ∧
    ((s.index = 0 ∧ s.status = false ∧ Asked S μ M I lstsq A₀ A s.tuners) ∨
     (s.index = 0 ∧ s.status = true ∧ Going S μ M I lstsq A s.tuners) ∨
     (s.index = 1 ∧ s.pending = none ∧ SetPointsMet S q))

section
variable {S : Setup n m} {M : ℝ} {ν : Int} {I : Newton.EstI X (Fin n)}
    {lstsq : Newton.Lstsq (Fin n)} {A₀ A : Fin m → X → Prop}

theorem Underway.base {t : OneTuner X n} (h : Underway S (some M, ν) M I lstsq A t) (h0 : t.queued = 0) :
    ∃ E, Base S (some M, ν) E t ∧ ∀ k, A k (E k) := by
  obtain ⟨E, q₀, x, p, t₀, h₀, hE, -, -, -, h, -⟩ := h
  refine ⟨E, ⟨?_, ?_, ?_, ?_, ?_, ?_, h0, ?_⟩, hE⟩
  · simp only [h.solver]; exact h₀.target
  · simp only [h.solver]; exact h₀.ests
  · simp only [h.solver]; exact h₀.gates
  · simp only [h.solver]; exact h₀.index
  · exact h.maxStep.trans h₀.maxStep
  · exact h.maxNumber.trans h₀.maxNumber
  · simp only [h.lastValues]; exact h₀.lastIndex

variable (hS : S.Valid) (hM : 0 < M) (hν : 1 ≤ ν) (hl : Newton.LstsqSpec lstsq) (hA : ∀ k, Keeps S I k (A k))
    (hup : ∀ k e, A₀ k e → ∀ q, ∀ y ∈ S.seen k, ∃ e', I.update (volts q) (some (S.scaled k q)) (some y) e = (e', .ok ()) ∧ A k e')
    (hle : ∀ k e, A k e → A₀ k e)

include hM hν in
theorem one_le_left {x : Vec n} (hlong : M < len x) {t : OneTuner X n} (hnum : t.maxNumber = ν) (hq : 0 ≤ t.queued) :
    1 ≤ left (len x) M t := by
  obtain ⟨hint, hone⟩ := toInt_div hM hlong
  unfold left
  split
  · rw [hint, hnum]
    omega
  · omega

include hM hν hle in
theorem underway_next {t : OneTuner X n} (h : Underway S (some M, ν) M I lstsq A t) :
    ∃ (t' : OneTuner X n) (p : Vec n), nextVoltages (Newton.solver I lstsq) [] t = (t', .ok (volts p)) ∧
      Going S (some M, ν) M I lstsq A t' ∧ Asked S (some M, ν) M I lstsq A₀ A t' := by
  obtain ⟨E, q₀, x, p, t₀, h₀, hE, hlong, hshift, hx, hway, hq⟩ := h
  have hleft := one_le_left hM hν hlong (hway.maxNumber.trans h₀.maxNumber) hq
  have hund : Underway S (some M, ν) M I lstsq A { t with queued := left (len x) M t - 1 } :=
    ⟨E, q₀, x, p, t₀, h₀, hE, hlong, hshift, hx, ⟨hway.solver, hway.lastVoltage, hway.lastFailed, hway.maxStep, hway.maxNumber, hway.lastValues⟩,
      by simp only; omega⟩
  refine ⟨_, _, way_next hM h₀.maxStep hlong hshift hway, .inr hund, ?_⟩
  by_cases h0 : left (len x) M t - 1 = 0
  · obtain ⟨E', hb, hE'⟩ := hund.base h0
    exact .inl ⟨E', hb, fun k => hle k _ (hE' k)⟩
  · exact .inr ⟨⟨t.lastVoltage, hund⟩, by simp only; omega⟩

include hS hM hν hl hA hle in
theorem Going.next {t : OneTuner X n} (h : Going S (some M, ν) M I lstsq A t) :
    ∃ (t' : OneTuner X n) (p : Vec n), nextVoltages (Newton.solver I lstsq) [] t = (t', .ok (volts p)) ∧
      Going S (some M, ν) M I lstsq A t' ∧ Asked S (some M, ν) M I lstsq A₀ A t' := by
  rcases h with ⟨E, q, h, hE⟩ | h
  · obtain ⟨x, hsug, hshift, hx, -⟩ := newton_suggestion hS (I := I) hl h hA hE
    by_cases hlong : M < len x
    · refine underway_next hM hν hle ⟨E, q, x, q, t, h, hE, hlong, hshift, hx, ⟨?_, h.lastVoltage, h.lastFailed, rfl, rfl, rfl⟩, h.queued.ge⟩
      rw [← h.pos]
    · refine ⟨t, q + x, ?_, .inl ⟨E, q, h, hE⟩, .inl ⟨E, h.toBase, fun k => hle k _ (hE k)⟩⟩
      have hsol : { t.solver with ests := List.ofFn E } = t.solver := by rw [← h.ests]
      rw [hsol] at hsug
      unfold nextVoltages
      rw [h.lastFailed]
      have hs' : (Newton.solver I lstsq).suggest [] t.solver = _ := hsug
      have hstep : vsub (overlay (volts q) fun i => some (some ((q + x) i))) (volts q) = volts x := by
        funext i
        simp [vsub, overlay, volts]
      have hslice : slice (some M) t.maxNumber t.queued (volts x) = .ok (t.queued, volts x) := by
        unfold slice
        rw [norm_volts]
        simp only [if_neg hlong]
      simp only [hs', h.maxStep, Bool.false_eq_true, if_false, h.lastVoltage, hstep, hslice]
      congr 2
      · exact h.lastVoltage.symm
      · exact h.lastFailed.symm
      · exact h.maxStep.symm
  · exact underway_next hM hν hle h

include hS hup hle in
theorem Asked.eval {t : OneTuner X n} (h : Asked S (some M, ν) M I lstsq A₀ A t) (q : Vec n) :
    ∃ (t' : OneTuner X n) (b : Bool), isTuned (Newton.solver I lstsq) (S.outs (volts q)) (volts q) t = (t', .ok b) ∧
      Going S (some M, ν) M I lstsq A t' ∧ Asked S (some M, ν) M I lstsq A₀ A t' ∧ (b = true → SetPointsMet S q) := by
  rcases h with ⟨E, hb, hE⟩ | ⟨⟨v, E, q₀, x, p, t₀, h₀, hE, hlong, hshift, hx, hway, hq⟩, hpos⟩
  · obtain ⟨E', t', b, hev, hAt, hE', hb⟩ := stopped_evaluation hS hup (lstsq := lstsq) hb hE q
    exact ⟨t', b, hev, .inl ⟨E', q, hAt, hE'⟩, .inl ⟨E', hAt.toBase, fun k => hle k _ (hE' k)⟩, hb.1⟩
  · have hund : Underway S (some M, ν) M I lstsq A { t with lastVoltage := volts q, solver := { t.solver with pos := volts q } } := by
      refine ⟨E, q₀, x, q, t₀, h₀, hE, hlong, hshift, hx, ⟨?_, rfl, hway.lastFailed, hway.maxStep, hway.maxNumber, hway.lastValues⟩, hq⟩
      have := hway.solver
      simp only at this ⊢
      rw [this]
    refine ⟨_, false, ?_, .inr hund, .inr ⟨⟨volts q, hund⟩, hpos⟩, by simp⟩
    unfold isTuned
    simp only
    rw [if_pos (by omega)]
    rfl

include hS hM hν hl hA hup hle

/-- All states between the statements of a call of `iterate` are of this kind. -/
theorem SafeSteps.trace {s : Autotuner.State (OneTuner X n) (Volt (Fin n)) (Volt (Fin n))} (h : SafeSteps S (some M, ν) M I lstsq A₀ A s) :
    ∀ r ∈ iterateTrace (hierarchy I lstsq S.outs) s, SafeSteps S (some M, ν) M I lstsq A₀ A r.1 := by
  have hs := h
  obtain ⟨q, hq, hp, hc⟩ := h
  obtain ⟨w, x, i, st, pd⟩ := s
  simp only at hq hp hc
  subst hq
  have hnan : ∀ p : Vec n, ¬ ∃ i, volts p i = none := by
    rintro p ⟨i, hi⟩
    cases hi
  rcases hc with ⟨rfl, rfl, hask⟩ | ⟨rfl, rfl, hgo⟩ | ⟨rfl, rfl, hm⟩
  · rcases hp with rfl | ⟨p, rfl⟩
    · obtain ⟨t', b, hev, hgo, hask', hb⟩ := hask.eval hS hup hle q
      cases b with
      | true =>
        intro r hr
        simp [iterateTrace, hierarchy, isComplete, hev] at hr
        rcases hr with rfl | rfl | rfl
        · exact hs
        · exact ⟨q, rfl, .inl rfl, .inl ⟨rfl, rfl, hask'⟩⟩
        · exact ⟨q, rfl, .inl rfl, .inr (.inr ⟨rfl, rfl, hb rfl⟩)⟩
      | false =>
        intro r hr
        simp [iterateTrace, hierarchy, isComplete, hev] at hr
        rcases hr with rfl | rfl | rfl
        · exact hs
        · exact ⟨q, rfl, .inl rfl, .inl ⟨rfl, rfl, hask'⟩⟩
        · exact ⟨q, rfl, .inl rfl, .inr (.inl ⟨rfl, rfl, hgo⟩)⟩
    · intro r hr
      simp [iterateTrace, hierarchy, isComplete, hnan] at hr
      rcases hr with rfl | rfl | rfl
      · exact hs
      · exact ⟨p, rfl, .inr ⟨p, rfl⟩, .inl ⟨rfl, rfl, hask⟩⟩
      · exact ⟨p, rfl, .inl rfl, .inl ⟨rfl, rfl, hask⟩⟩
  · rcases hp with rfl | ⟨p, rfl⟩
    · obtain ⟨t', p, hnext, hgo', hask'⟩ := hgo.next hS hM hν hl hA hle
      intro r hr
      simp [iterateTrace, hierarchy, isComplete, hnext] at hr
      rcases hr with rfl | rfl | rfl | rfl
      · exact hs
      · exact ⟨q, rfl, .inl rfl, .inr (.inl ⟨rfl, rfl, hgo'⟩)⟩
      · exact ⟨q, rfl, .inr ⟨p, rfl⟩, .inr (.inl ⟨rfl, rfl, hgo'⟩)⟩
      · exact ⟨q, rfl, .inr ⟨p, rfl⟩, .inl ⟨rfl, rfl, hask'⟩⟩
    · intro r hr
      simp [iterateTrace, hierarchy, isComplete, hnan] at hr
      rcases hr with rfl | rfl | rfl
      · exact hs
      · exact ⟨p, rfl, .inr ⟨p, rfl⟩, .inr (.inl ⟨rfl, rfl, hgo⟩)⟩
      · exact ⟨p, rfl, .inl rfl, .inr (.inl ⟨rfl, rfl, hgo⟩)⟩
  · intro r hr
    simp [iterateTrace, hierarchy, isComplete] at hr
    subst hr
    exact hs

theorem SafeSteps.acts {s : Autotuner.State (OneTuner X n) (Volt (Fin n)) (Volt (Fin n))} (h : SafeSteps S (some M, ν) M I lstsq A₀ A s)
    (l : List (Act (Volt (Fin n)) Unit)) (hall : ∀ a ∈ l, (∃ save, a = .call (.iterate save)) ∨ ∃ k, a = .iterateStopped k) :
    SafeSteps S (some M, ν) M I lstsq A₀ A (Autotuner.acts (hierarchy I lstsq S.outs) s l).1 := by
  induction l generalizing s with
  | nil => exact h
  | cons a l ih =>
    refine ih ?_ fun b hb => hall b (List.mem_cons_of_mem _ hb)
    have htr := h.trace hS hM hν hl hA hup hle
    rcases hall a (List.mem_cons_self ..) with ⟨save, rfl⟩ | ⟨k, rfl⟩
    · obtain ⟨r, hr, hst, -⟩ := uninterrupted_iterate (hierarchy I lstsq S.outs) save s
      have : (Autotuner.act (hierarchy I lstsq S.outs) s (.call (.iterate save))).1 = (iterate (hierarchy I lstsq S.outs) save s).1 := rfl
      rw [this, hst]
      exact htr r (List.mem_of_getLast? hr)
    · simp only [Autotuner.act, stopAt]
      split
      · rename_i r hr
        exact htr r (List.mem_of_getElem? hr)
      · cases hr : (iterateTrace (hierarchy I lstsq S.outs) s).getLast? with
        | none => exact h
        | some r => exact htr r (List.mem_of_getLast? hr)

/-- From every such state the tuning can be completed. -/
theorem SafeSteps.completes {s : Autotuner.State (OneTuner X n) (Volt (Fin n)) (Volt (Fin n))} (h : SafeSteps S (some M, ν) M I lstsq A₀ A s) :
    ∃ N, CompletesWithin S I lstsq N s := by
  have hnan : ∀ p : Vec n, ¬ ∃ i, volts p i = none := by
    rintro p ⟨i, hi⟩
    cases hi
  have hstep : ∀ {s s' : Autotuner.State (OneTuner X n) (Volt (Fin n)) (Volt (Fin n))} {N : Nat},
      (iterate (hierarchy I lstsq S.outs) (.ok ()) s).1 = s' → (iterate (hierarchy I lstsq S.outs) (.ok ()) s).2.2 = .ok () →
      CompletesWithin S I lstsq N s' → CompletesWithin S I lstsq (N + 1) s := by
    rintro s s' N h1 h2 ⟨M, hM, s'', hs'', hc⟩
    refine ⟨M + 1, by omega, s'', ?_, hc⟩
    rw [iterates]
    rcases hi : iterate (hierarchy I lstsq S.outs) (.ok ()) s with ⟨s₁, ev, r⟩
    rw [hi] at h1 h2
    simp only at h1 h2
    subst h1 h2
    exact hs''
  -- voltages that are pending are written
  have hwrite : ∀ {t : OneTuner X n} {x : Volt (Fin n)} {p : Vec n} {st : Bool}, (∃ N, CompletesWithin S I lstsq N ⟨t, volts p, 0, st, none⟩) →
      ∃ N, CompletesWithin S I lstsq N ⟨t, x, 0, st, some (volts p)⟩ := fun ⟨N, h⟩ =>
    ⟨N + 1, hstep (by simp [iterate, hierarchy, isComplete, hnan, finish]) (by simp [iterate, hierarchy, isComplete, hnan, finish]) h⟩
  -- for a suggestion the present voltages are not needed
  have hany : ∀ {t : OneTuner X n} {x x' : Volt (Fin n)} {N : Nat}, CompletesWithin S I lstsq N ⟨t, x, 0, true, none⟩ →
      CompletesWithin S I lstsq N ⟨t, x', 0, true, none⟩ := by
    intro t x x' N h
    obtain ⟨K, rfl, s₁, ev, hit, hK⟩ := h.step rfl
    rcases hq : nextVoltages (Newton.solver I lstsq) [] t with ⟨t', r⟩
    rcases r with e | v
    · simp [iterate, hierarchy, isComplete, hq] at hit
    · simp [iterate, hierarchy, isComplete, hq, finish] at hit
      obtain ⟨rfl, -⟩ := hit
      obtain ⟨K, rfl, s₂, ev, hit, hK⟩ := hK.step rfl
      by_cases hv : ∃ i, v i = none
      · simp [iterate, hierarchy, isComplete, hv] at hit
      · simp [iterate, hierarchy, isComplete, hv, finish] at hit
        obtain ⟨rfl, -⟩ := hit
        refine hstep (s' := ⟨t', x', 0, false, some v⟩) ?_ ?_ (hstep (s' := ⟨t', v, 0, false, none⟩) ?_ ?_ hK) <;>
          simp [iterate, hierarchy, isComplete, hq, hv, finish]
  have hAt : ∀ {E : Fin m → X} {q : Vec n} {t : OneTuner X n} {x : Volt (Fin n)}, At S (some M, ν) E q t → (∀ k, A k (E k)) →
      ∃ N, CompletesWithin S I lstsq N ⟨t, x, 0, true, none⟩ := by
    intro E q t x h hE
    obtain ⟨y, -, -, hy, -⟩ := newton_suggestion hS (I := I) hl h hA hE
    exact ⟨_, hany (newton_phase_limited hS hl hM hν hA _ _ E q (q + y) t hE (le_refl _) h hy (le_refl _))⟩
  have hsug : ∀ {t : OneTuner X n} {x : Volt (Fin n)}, Going S (some M, ν) M I lstsq A t →
      ∃ N, CompletesWithin S I lstsq N ⟨t, x, 0, true, none⟩ := by
    rintro t x (⟨E, q, h, hE⟩ | ⟨E, q₀, y, p, t₀, h₀, hE, hlong, hshift, hx, hway, hq⟩)
    · exact hAt h hE
    · have hleft := one_le_left hM hν hlong (hway.maxNumber.trans h₀.maxNumber) hq
      obtain ⟨j, hj⟩ : ∃ j : Nat, left (len y) M t = j + 1 := ⟨(left (len y) M t - 1).toNat, by omega⟩
      refine ⟨_, hany (way_phase hS h₀ hA hE hM h₀.maxStep hlong hshift
        (3 * (⌊len (q₀ + y - (p + ((j + 1 : ℝ) * (M / len y)) • y)) / M⌋₊ + 1)) j p t hway hj fun E' t'' hE' h' => ?_)⟩
      exact newton_phase_limited hS hl hM hν hA _ _ E' _ (q₀ + y) t'' hE' (le_refl _) h' hx (le_refl _)
  have heval : ∀ {t : OneTuner X n} {q : Vec n}, Asked S (some M, ν) M I lstsq A₀ A t →
      ∃ N, CompletesWithin S I lstsq N ⟨t, volts q, 0, false, none⟩ := by
    intro t q h
    obtain ⟨t', b, hev, hgo, -, hb⟩ := h.eval hS hup hle q
    cases b with
    | true =>
      refine ⟨1, hstep (s' := ⟨t', volts q, 1, false, none⟩) ?_ ?_ ⟨0, by omega, _, rfl, rfl, q, rfl, hb rfl⟩⟩ <;>
        simp [iterate, hierarchy, isComplete, hev, finish]
    | false =>
      obtain ⟨N, hN⟩ := hsug (x := volts q) hgo
      refine ⟨N + 1, hstep (s' := ⟨t', volts q, 0, true, none⟩) ?_ ?_ hN⟩ <;>
        simp [iterate, hierarchy, isComplete, hev, finish]
  obtain ⟨q, hq, hp, hc⟩ := h
  obtain ⟨w, x, i, st, pd⟩ := s
  simp only at hq hp hc
  subst hq
  rcases hc with ⟨rfl, rfl, hask⟩ | ⟨rfl, rfl, hgo⟩ | ⟨rfl, rfl, hm⟩
  · rcases hp with rfl | ⟨p, rfl⟩
    · exact heval hask
    · exact hwrite (heval hask)
  · rcases hp with rfl | ⟨p, rfl⟩
    · exact hsug hgo
    · exact hwrite (hsug hgo)
  · exact ⟨0, 0, le_refl _, _, rfl, rfl, q, rfl, hm⟩

end

end Qtune.EndToEnd
