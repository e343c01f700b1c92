import Verif.EndToEnd.PropsKalman
import Verif.Autotuner.PropsInterrupt

/-! # Interrupted calls, when the gradients are known: an invariant -/

namespace Qtune.EndToEnd

open Qtune.Tuner Qtune.Gradient Qtune.Autotuner

variable {n m : Nat} {X : Type}

/-- The states in which a tuning with known gradients can be left by interrupted calls.  `A₀` are states of estimators that may not have measured yet, `A` those of
estimators that have. -/
def Safe (S : Setup n m) (μ : Val × Int) (A₀ A : Fin m → X → Prop)
    (s : Autotuner.State (OneTuner X n) (Volt (Fin n)) (Volt (Fin n))) : Prop :=
  ∃ (E : Fin m → X) (q : Vec n), s.expt = volts q ∧ (s.pending = none ∨ ∃ p : Vec n, s.pending = some (volts p)) ∧
    ((s.index = 0 ∧ s.status = false ∧ Base S μ E s.tuners ∧ ∀ k, A₀ k (E k)) ∨
     (s.index = 0 ∧ s.status = true ∧ (∃ p, At S μ E p s.tuners) ∧ ∀ k, A k (E k)) ∨
     (s.index = 1 ∧ s.pending = none ∧ SetPointsMet S q))

/-- A suggestion with known gradients leaves the tuner as it is. -/
theorem suggestion_same {S : Setup n m} (hS : S.Valid) {μ : Val × Int} (hμ : μ.1 = none) {I : Newton.EstI X (Fin n)}
    {lstsq : Newton.Lstsq (Fin n)} (hl : Newton.LstsqSpec lstsq) {E : Fin m → X} {q : Vec n} {t : OneTuner X n} (h : At S μ E q t)
    {A : Fin m → X → Prop} (hA : ∀ k, Keeps S I k (A k)) (hdone : ∀ k, A k (E k)) :
    ∃ p : Vec n, nextVoltages (Newton.solver I lstsq) [] t = (t, .ok (volts p)) ∧ ∀ k, S.scaled k p = S.desired k := by
  obtain ⟨x, hsug, -, hx, -⟩ := newton_suggestion hS hl h hA hdone
  refine ⟨q + x, ?_, hx⟩
  have hsol : { t.solver with ests := List.ofFn E } = t.solver := by rw [← h.ests]
  rw [hsol] at hsug
  unfold nextVoltages
  rw [h.lastFailed]
  have hs' : (Newton.solver I lstsq).suggest [] t.solver = _ := hsug
  have hstep : vsub (overlay (volts q) fun i => some (some ((q + x) i))) (volts q) = volts (q + x - q) := by
    funext i
    simp [vsub, overlay, volts]
  have hslice : slice μ.1 t.maxNumber t.queued (volts (q + x - q)) = .ok (t.queued, volts (q + x - q)) := by
    unfold slice
    rw [norm_volts, hμ]
  simp only [hs', h.maxStep, Bool.false_eq_true, if_false, h.lastVoltage, hstep, hslice]
  congr 2
  · exact h.lastVoltage.symm
  · exact h.lastFailed.symm
  · exact h.maxStep.symm
  · funext i
    simp [vadd, volts]

section
variable {S : Setup n m} (hS : S.Valid) {μ : Val × Int} (hμ : μ.1 = none) {I : Newton.EstI X (Fin n)}
    {lstsq : Newton.Lstsq (Fin n)} (hl : Newton.LstsqSpec lstsq) {A₀ A : Fin m → X → Prop} (hA : ∀ k, Keeps S I k (A k))
    (hup : ∀ k e, A₀ k e → ∀ q, ∀ y ∈ S.seen k, ∃ e', I.update (volts q) (some (S.scaled k q)) (some y) e = (e', .ok ()) ∧ A k e')
    (hle : ∀ k e, A k e → A₀ k e)
include hS hup

/-- An evaluation. -/
theorem stopped_evaluation {E : Fin m → X} {t : OneTuner X n} (hbase : Base S μ E t) (hE : ∀ k, A₀ k (E k)) (q : Vec n) :
    ∃ (E' : Fin m → X) (t' : OneTuner X n) (b : Bool), isTuned (Newton.solver I lstsq) (S.outs (volts q)) (volts q) t = (t', .ok b) ∧
      At S μ E' q t' ∧ (∀ k, A k (E' k)) ∧ (b = true ↔ SetPointsMet S q) := by
  obtain ⟨y, t', b, hev, hy, hAt, hb⟩ := evaluation (lstsq := lstsq) (I := I) hS.toSound hbase q
    (fun k y hy => by obtain ⟨e', he', -⟩ := hup k _ (hE k) q y hy; exact ⟨e', he'⟩)
  refine ⟨_, t', b, hev, hAt, fun k => ?_, hb⟩
  obtain ⟨e', he', h⟩ := hup k _ (hE k) q (y k) (hy k)
  rw [he']
  exact h

include hμ hl hA hle

/-- All states between the statements of a call of `iterate` are of this kind. -/
theorem Safe.trace {s : Autotuner.State (OneTuner X n) (Volt (Fin n)) (Volt (Fin n))} (h : Safe S μ A₀ A s) :
    ∀ r ∈ iterateTrace (hierarchy I lstsq S.outs) s, Safe S μ A₀ A r.1 := by
  have hs := h
  obtain ⟨E, q, hq, hp, hc⟩ := h
  obtain ⟨w, x, i, st, pd⟩ := s
  simp only at hq hp hc
  subst hq
  have hnan : ∀ p : Vec n, ¬ ∃ i, volts p i = none := by
    rintro p ⟨i, hi⟩
    cases hi
  rcases hc with ⟨rfl, rfl, hbase, hE⟩ | ⟨rfl, rfl, ⟨p₀, hAt⟩, hE⟩ | ⟨rfl, rfl, hm⟩
  · rcases hp with rfl | ⟨p, rfl⟩
    · obtain ⟨E', t', b, hev, hAt', hE', hb⟩ := stopped_evaluation hS hup (lstsq := lstsq) hbase hE q
      have hsafe : ∀ st : Bool, Safe S μ A₀ A ⟨t', volts q, 0, st, none⟩ := by
        rintro (_ | _)
        · exact ⟨E', q, rfl, .inl rfl, .inl ⟨rfl, rfl, hAt'.toBase, fun k => hle k _ (hE' k)⟩⟩
        · exact ⟨E', q, rfl, .inl rfl, .inr (.inl ⟨rfl, rfl, ⟨q, hAt'⟩, hE'⟩)⟩
      cases b with
      | true =>
        intro r hr
        simp [iterateTrace, hierarchy, isComplete, hev] at hr
        rcases hr with rfl | rfl | rfl
        · exact hs
        · exact hsafe false
        · exact ⟨E', q, rfl, .inl rfl, .inr (.inr ⟨rfl, rfl, hb.1 rfl⟩)⟩
      | false =>
        intro r hr
        simp [iterateTrace, hierarchy, isComplete, hev] at hr
        rcases hr with rfl | rfl | rfl
        · exact hs
        · exact hsafe false
        · exact hsafe true
    · intro r hr
      simp [iterateTrace, hierarchy, isComplete, hnan] at hr
      rcases hr with rfl | rfl | rfl
      · exact hs
      · exact ⟨E, p, rfl, .inr ⟨p, rfl⟩, .inl ⟨rfl, rfl, hbase, hE⟩⟩
      · exact ⟨E, p, rfl, .inl rfl, .inl ⟨rfl, rfl, hbase, hE⟩⟩
  · rcases hp with rfl | ⟨p, rfl⟩
    · obtain ⟨p, hnext, -⟩ := suggestion_same hS hμ hl hAt hA hE
      intro r hr
      simp [iterateTrace, hierarchy, isComplete, hnext] at hr
      rcases hr with rfl | rfl | rfl | rfl
      · exact hs
      · exact hs
      · exact ⟨E, q, rfl, .inr ⟨p, rfl⟩, .inr (.inl ⟨rfl, rfl, ⟨p₀, hAt⟩, hE⟩)⟩
      · exact ⟨E, q, rfl, .inr ⟨p, rfl⟩, .inl ⟨rfl, rfl, hAt.toBase, fun k => hle k _ (hE k)⟩⟩
    · intro r hr
      simp [iterateTrace, hierarchy, isComplete, hnan] at hr
      rcases hr with rfl | rfl | rfl
      · exact hs
      · exact ⟨E, p, rfl, .inr ⟨p, rfl⟩, .inr (.inl ⟨rfl, rfl, ⟨p₀, hAt⟩, hE⟩)⟩
      · exact ⟨E, p, rfl, .inl rfl, .inr (.inl ⟨rfl, rfl, ⟨p₀, hAt⟩, hE⟩)⟩
  · intro r hr
    simp [iterateTrace, hierarchy, isComplete] at hr
    subst hr
    exact hs

theorem Safe.acts {s : Autotuner.State (OneTuner X n) (Volt (Fin n)) (Volt (Fin n))} (h : Safe S μ A₀ A s)
    (l : List (Act (Volt (Fin n)) Unit)) (hall : ∀ a ∈ l, (∃ save, a = .call (.iterate save)) ∨ ∃ k, a = .iterateStopped k) :
    Safe S μ A₀ A (Autotuner.acts (hierarchy I lstsq S.outs) s l).1 := by
  induction l generalizing s with
  | nil => exact h
  | cons a l ih =>
    refine ih ?_ fun b hb => hall b (List.mem_cons_of_mem _ hb)
    have htr := h.trace hS hμ (lstsq := lstsq) hl hA hup hle
    rcases hall a (List.mem_cons_self ..) with ⟨save, rfl⟩ | ⟨k, rfl⟩
    · obtain ⟨r, hr, hst, -⟩ := uninterrupted_iterate (hierarchy I lstsq S.outs) save s
      have : (Autotuner.act (hierarchy I lstsq S.outs) s (.call (.iterate save))).1 = (iterate (hierarchy I lstsq S.outs) save s).1 := rfl
      rw [this, hst]
      exact htr r (List.mem_of_getLast? hr)
    · simp only [Autotuner.act, stopAt]
      split
      · rename_i r hr
        exact htr r (List.mem_of_getElem? hr)
      · cases hr : (iterateTrace (hierarchy I lstsq S.outs) s).getLast? with
        | none => exact h
        | some r => exact htr r (List.mem_of_getLast? hr)

/-- From every such state the tuning is complete after at most 5 calls. -/
theorem Safe.completes {s : Autotuner.State (OneTuner X n) (Volt (Fin n)) (Volt (Fin n))} (h : Safe S μ A₀ A s) :
    CompletesWithin S I lstsq 5 s := by
  have hnan : ∀ p : Vec n, ¬ ∃ i, volts p i = none := by
    rintro p ⟨i, hi⟩
    cases hi
  have hstep : ∀ {s s' : Autotuner.State (OneTuner X n) (Volt (Fin n)) (Volt (Fin n))} {N : Nat},
      (iterate (hierarchy I lstsq S.outs) (.ok ()) s).1 = s' → (iterate (hierarchy I lstsq S.outs) (.ok ()) s).2.2 = .ok () →
      CompletesWithin S I lstsq N s' → CompletesWithin S I lstsq (N + 1) s := by
    rintro s s' N h1 h2 ⟨M, hM, s'', hs'', hc⟩
    refine ⟨M + 1, by omega, s'', ?_, hc⟩
    rw [iterates]
    rcases hi : iterate (hierarchy I lstsq S.outs) (.ok ()) s with ⟨s₁, ev, r⟩
    rw [hi] at h1 h2
    simp only at h1 h2
    subst h1 h2
    exact hs''
  -- voltages that are pending are written
  have hwrite : ∀ {t : OneTuner X n} {x : Volt (Fin n)} {p : Vec n} {st : Bool} {N : Nat}, CompletesWithin S I lstsq N ⟨t, volts p, 0, st, none⟩ →
      CompletesWithin S I lstsq (N + 1) ⟨t, x, 0, st, some (volts p)⟩ := fun h =>
    hstep (by simp [iterate, hierarchy, isComplete, hnan, finish]) (by simp [iterate, hierarchy, isComplete, hnan, finish]) h
  -- evaluation at voltages that meet the set points
  have hfinal : ∀ {E : Fin m → X} {t : OneTuner X n} {p : Vec n}, Base S μ E t → (∀ k, A₀ k (E k)) → (∀ k, S.scaled k p = S.desired k) →
      CompletesWithin S I lstsq 1 ⟨t, volts p, 0, false, none⟩ := by
    intro E t p hbase hE hp
    obtain ⟨E', t', b, hev, -, -, hb⟩ := stopped_evaluation hS hup (lstsq := lstsq) hbase hE p
    have hmet : SetPointsMet S p := fun k tol htol => by
      change |S.desired k - S.scaled k p| < tol
      rw [hp k, sub_self, abs_zero]
      exact hS.tolerance k tol htol
    obtain rfl : b = true := hb.2 hmet
    refine hstep (s' := ⟨t', volts p, 1, false, none⟩) ?_ ?_ ⟨0, le_refl _, _, rfl, rfl, p, rfl, hmet⟩ <;>
      simp [iterate, hierarchy, isComplete, hev, finish]
  -- suggestion
  have hsug : ∀ {E : Fin m → X} {t : OneTuner X n} {p : Vec n} {x : Volt (Fin n)}, At S μ E p t → (∀ k, A k (E k)) →
      CompletesWithin S I lstsq 3 ⟨t, x, 0, true, none⟩ := by
    intro E t p x hAt hE
    obtain ⟨p', hnext, hp'⟩ := suggestion_same hS hμ hl hAt hA hE
    refine hstep (s' := ⟨t, x, 0, false, some (volts p')⟩) ?_ ?_
      (hwrite (hfinal hAt.toBase (fun k => hle k _ (hE k)) hp')) <;>
      simp [iterate, hierarchy, isComplete, hnext, finish]
  have hmono : ∀ {s : Autotuner.State (OneTuner X n) (Volt (Fin n)) (Volt (Fin n))} {M N : Nat}, M ≤ N → CompletesWithin S I lstsq M s →
      CompletesWithin S I lstsq N s := by
    rintro s M N hMN ⟨K, hK, h⟩
    exact ⟨K, hK.trans hMN, h⟩
  have heval : ∀ {E : Fin m → X} {t : OneTuner X n} {q : Vec n}, Base S μ E t → (∀ k, A₀ k (E k)) →
      CompletesWithin S I lstsq 4 ⟨t, volts q, 0, false, none⟩ := by
    intro E t q hbase hE
    obtain ⟨E', t', b, hev, hAt', hE', hb⟩ := stopped_evaluation hS hup (lstsq := lstsq) hbase hE q
    cases b with
    | true =>
      refine hstep (s' := ⟨t', volts q, 1, false, none⟩) ?_ ?_ ⟨0, by omega, _, rfl, rfl, q, rfl, hb.1 rfl⟩ <;>
        simp [iterate, hierarchy, isComplete, hev, finish]
    | false =>
      refine hstep (s' := ⟨t', volts q, 0, true, none⟩) ?_ ?_ (hsug hAt' hE') <;>
        simp [iterate, hierarchy, isComplete, hev, finish]
  obtain ⟨E, q, hq, hp, hc⟩ := h
  obtain ⟨w, x, i, st, pd⟩ := s
  simp only at hq hp hc
  subst hq
  rcases hc with ⟨rfl, rfl, hbase, hE⟩ | ⟨rfl, rfl, ⟨p₀, hAt⟩, hE⟩ | ⟨rfl, rfl, hm⟩
  · rcases hp with rfl | ⟨p, rfl⟩
    · exact hmono (by omega) (heval hbase hE)
    · exact hwrite (heval hbase hE)
  · rcases hp with rfl | ⟨p, rfl⟩
    · exact hmono (by omega) (hsug hAt hE)
    · exact hmono (by omega) (hwrite (hsug hAt hE))
  · exact ⟨0, by omega, _, rfl, rfl, q, rfl, hm⟩

end

end Qtune.EndToEnd
