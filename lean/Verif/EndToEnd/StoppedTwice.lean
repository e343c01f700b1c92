import Verif.EndToEnd.StoppedAgain
import Verif.EndToEnd.StoppedRel

/-! # Interrupted calls, when a second evaluation at the same voltages has no effect -/

namespace Qtune.EndToEnd

open Qtune.Tuner Qtune.Gradient Qtune.Autotuner

variable {n m : Nat} {X : Type}

/-- `s` is a state of the tuning without interruptions, `s'` one of the tuning with interruptions that stands for it. -/
def StandsFor (I : Newton.EstI X (Fin n)) (lstsq : Newton.Lstsq (Fin n)) (outs : Volt (Fin n) → List Outcome)
    (s' s : Autotuner.State (OneTuner X n) (Volt (Fin n)) (Volt (Fin n))) : Prop :=
  (∃ t b, s'.index = 0 ∧ s.index = 0 ∧ s'.expt = s.expt ∧ s'.pending = none ∧ s.pending = none ∧ s'.status = false ∧ s.status = false ∧
    isTuned (Newton.solver I lstsq) (outs s.expt) s.expt s.tuners = (t, .ok b) ∧ Twin s.tuners s.tuners ∧ Twin s'.tuners t) ∨
  Twin s'.tuners s.tuners ∧
    ((s'.index = s.index ∧ (s.index = 0 ∨ s.index = 1) ∧ s'.expt = s.expt ∧ s'.pending = none ∧ s.pending = none ∧ s'.status = false ∧
        s.status = false) ∨
     (s'.index = 0 ∧ s.index = 0 ∧ s'.status = true ∧ s.status = true ∧ s.pending = none ∧
        (s'.pending = none ∨ ∃ v, s'.pending = some v ∧ (nextVoltages (Newton.solver I lstsq) [] s.tuners).2 = .ok v)) ∨
     (s'.index = 0 ∧ s.index = 0 ∧ s'.status = false ∧ s.status = false ∧ ∃ v, s'.pending = some v ∧ s.pending = some v))

theorem Twin.trans {t₁ t₂ t₃ : OneTuner X n} (h : Twin t₁ t₂) (h' : Twin t₂ t₃) : Twin t₁ t₃ := by
  obtain ⟨e1, e2, e3, e4⟩ := h
  obtain ⟨f1, f2, f3, f4⟩ := h'
  refine ⟨?_, e2.trans f2, f3, f4⟩
  rw [e1, f1]

theorem Twin.refl {t₁ t₂ : OneTuner X n} (h : Twin t₁ t₂) : Twin t₂ t₂ := ⟨rfl, rfl, h.length, h.maxStep⟩

section
variable {S : Setup n m} {I : Newton.EstI X (Fin n)} {lstsq : Newton.Lstsq (Fin n)} (hI : Settled I)

/-- The states between the statements of a call that evaluates. -/
theorem evaluation_states {N : Nat} {t₀ t₁ t' t₁' : OneTuner X n} {x : Volt (Fin n)} {b : Bool}
    (hev : isTuned (Newton.solver I lstsq) (S.outs x) x t₀ = (t₁, .ok b))
    (hev' : isTuned (Newton.solver I lstsq) (S.outs x) x t' = (t₁', .ok b)) (htw : Twin t₁' t₁) (hrefl : Twin t₀ t₀)
    (hs : CompletesWithin S I lstsq (N + 1) ⟨t₀, x, 0, false, none⟩)
    (hh : StandsFor I lstsq S.outs ⟨t', x, 0, false, none⟩ ⟨t₀, x, 0, false, none⟩) :
    ∀ r ∈ iterateTrace (hierarchy I lstsq S.outs) ⟨t', x, 0, false, none⟩,
      ∃ s₂, CompletesWithin S I lstsq (N + 1) s₂ ∧ StandsFor I lstsq S.outs r.1 s₂ := by
  have hmono : ∀ {s : Autotuner.State (OneTuner X n) (Volt (Fin n)) (Volt (Fin n))} {K : Nat}, CompletesWithin S I lstsq K s →
      CompletesWithin S I lstsq (K + 1) s := by
    rintro s K ⟨M, hM, h⟩
    exact ⟨M, by omega, h⟩
  obtain ⟨K, hKN, s₁, ev, hit, hK⟩ := hs.step rfl
  obtain rfl : N = K := by omega
  intro r hr
  cases b with
  | false =>
    simp [iterate, hierarchy, isComplete, hev, finish] at hit
    obtain ⟨rfl, -⟩ := hit
    simp [iterateTrace, hierarchy, isComplete, hev'] at hr
    rcases hr with rfl | rfl | rfl
    · exact ⟨_, hs, hh⟩
    · exact ⟨_, hs, .inl ⟨t₁, false, rfl, rfl, rfl, rfl, rfl, rfl, rfl, hev, hrefl, htw⟩⟩
    · exact ⟨_, hmono hK, .inr ⟨htw, .inr (.inl ⟨rfl, rfl, rfl, rfl, rfl, .inl rfl⟩)⟩⟩
  | true =>
    simp [iterate, hierarchy, isComplete, hev, finish] at hit
    obtain ⟨rfl, -⟩ := hit
    simp [iterateTrace, hierarchy, isComplete, hev'] at hr
    rcases hr with rfl | rfl | rfl
    · exact ⟨_, hs, hh⟩
    · exact ⟨_, hs, .inl ⟨t₁, true, rfl, rfl, rfl, rfl, rfl, rfl, rfl, hev, hrefl, htw⟩⟩
    · exact ⟨_, hmono hK, .inr ⟨htw, .inl ⟨rfl, .inr rfl, rfl, rfl, rfl, rfl, rfl⟩⟩⟩

include hI

/-- Where the tuning with interruptions evaluates, the evaluation has the result that it has without. -/
theorem StandsFor.evaluates {N : Nat} {w' w : OneTuner X n} {x : Volt (Fin n)}
    (h : StandsFor I lstsq S.outs ⟨w', x, 0, false, none⟩ ⟨w, x, 0, false, none⟩)
    (hs : CompletesWithin S I lstsq N ⟨w, x, 0, false, none⟩) :
    ∃ t₁ t₁' b, Twin w w ∧ isTuned (Newton.solver I lstsq) (S.outs x) x w = (t₁, .ok b) ∧
      isTuned (Newton.solver I lstsq) (S.outs x) x w' = (t₁', .ok b) ∧ Twin t₁' t₁ := by
  rcases h with ⟨t, b, -, -, -, -, -, -, -, hev, hrefl, htw⟩ | ⟨htw, -⟩
  · simp only at hev hrefl htw
    obtain ⟨-, t₂, h2, htw2⟩ := hrefl.eval hI (S.outs x) x hev
    obtain ⟨⟨t₁', k1, k2⟩, -⟩ := htw.eval hI (S.outs x) x h2
    exact ⟨t, t₁', b, hrefl, hev, k1, k2.trans htw2⟩
  · simp only at htw
    obtain ⟨K, hKN, s₁, ev, hit, hK⟩ := hs.step rfl
    rcases hq : isTuned (Newton.solver I lstsq) (S.outs x) x w with ⟨t, e | b⟩
    · simp [iterate, hierarchy, isComplete, hq] at hit
    · obtain ⟨⟨t₁', k1, k2⟩, -⟩ := htw.eval hI (S.outs x) x hq
      exact ⟨t, t₁', b, htw.refl, rfl, k1, k2⟩

/-- One call of `iterate`, and all states in which it may be interrupted. -/
theorem StandsFor.trace {N : Nat} {s' s : Autotuner.State (OneTuner X n) (Volt (Fin n)) (Volt (Fin n))}
    (h : StandsFor I lstsq S.outs s' s) (hs : CompletesWithin S I lstsq N s) :
    ∀ r ∈ iterateTrace (hierarchy I lstsq S.outs) s', ∃ s₂, CompletesWithin S I lstsq N s₂ ∧ StandsFor I lstsq S.outs r.1 s₂ := by
  have hh := h
  obtain ⟨w', x', i', st', pd'⟩ := s'
  obtain ⟨w, x, i, st, pd⟩ := s
  have hmono : ∀ {s : Autotuner.State (OneTuner X n) (Volt (Fin n)) (Volt (Fin n))} {K : Nat}, CompletesWithin S I lstsq K s →
      CompletesWithin S I lstsq (K + 1) s := by
    rintro s K ⟨M, hM, h⟩
    exact ⟨M, by omega, h⟩
  rcases h with ⟨t, b, rfl, rfl, rfl, rfl, rfl, rfl, rfl, -⟩ | ⟨htw, hc⟩
  · obtain ⟨t₁, t₁', b, k0, k1, k2, k3⟩ := hh.evaluates hI hs
    obtain ⟨K, rfl, -⟩ := hs.step rfl
    exact evaluation_states k1 k2 k3 k0 hs hh
  · simp only at htw hc
    rcases hc with ⟨rfl, hi, rfl, rfl, rfl, rfl, rfl⟩ | ⟨rfl, rfl, rfl, rfl, rfl, hp⟩ | ⟨rfl, rfl, rfl, rfl, v, rfl, rfl⟩
    · rcases hi with rfl | rfl
      · obtain ⟨t₁, t₁', b, k0, k1, k2, k3⟩ := hh.evaluates hI hs
        obtain ⟨K, rfl, -⟩ := hs.step rfl
        exact evaluation_states k1 k2 k3 k0 hs hh
      · intro r hr
        simp [iterateTrace, hierarchy, isComplete] at hr
        subst hr
        exact ⟨_, hs, hh⟩
    · obtain ⟨K, rfl, s₁, ev, hit, hK⟩ := hs.step rfl
      obtain ⟨k1, k2⟩ := htw.next hI (lstsq := lstsq)
      obtain ⟨-, k3⟩ := htw.refl.next hI (lstsq := lstsq)
      rcases hq' : nextVoltages (Newton.solver I lstsq) [] w' with ⟨t', r'⟩
      rcases hq : nextVoltages (Newton.solver I lstsq) [] w with ⟨t, b⟩
      rw [hq', hq] at k1
      rw [hq'] at k2
      rw [hq] at k3
      simp only at k1 k2 k3
      subst k1 k2 k3
      rcases r' with e | v
      · simp [iterate, hierarchy, isComplete, hq] at hit
      · simp [iterate, hierarchy, isComplete, hq, finish] at hit
        obtain ⟨rfl, -⟩ := hit
        rcases hp with rfl | ⟨v', rfl, hv'⟩
        · intro r hr
          simp [iterateTrace, hierarchy, isComplete, hq'] at hr
          rcases hr with rfl | rfl | rfl | rfl
          · exact ⟨_, hs, hh⟩
          · exact ⟨_, hs, hh⟩
          · exact ⟨_, hs, .inr ⟨htw, .inr (.inl ⟨rfl, rfl, rfl, rfl, rfl, .inr ⟨v, rfl, by rw [hq]⟩⟩)⟩⟩
          · exact ⟨_, hmono hK, .inr ⟨htw, .inr (.inr ⟨rfl, rfl, rfl, rfl, v, rfl, rfl⟩)⟩⟩
        · have hv : v' = v := by
            rw [hq] at hv'
            simpa using hv'.symm
          subst hv
          intro r hr
          by_cases hnan : ∃ i, v' i = none
          · simp [iterateTrace, hierarchy, isComplete, hnan] at hr
            subst hr
            exact ⟨_, hs, hh⟩
          · simp [iterateTrace, hierarchy, isComplete, hnan] at hr
            rcases hr with rfl | rfl | rfl
            · exact ⟨_, hs, hh⟩
            · exact ⟨_, hs, .inr ⟨htw, .inr (.inl ⟨rfl, rfl, rfl, rfl, rfl, .inr ⟨v', rfl, by rw [hq]⟩⟩)⟩⟩
            · exact ⟨_, hs, .inr ⟨htw, .inr (.inl ⟨rfl, rfl, rfl, rfl, rfl, .inl rfl⟩)⟩⟩
    · obtain ⟨K, rfl, s₁, ev, hit, hK⟩ := hs.step rfl
      by_cases hnan : ∃ i, v i = none
      · simp [iterate, hierarchy, isComplete, hnan] at hit
      · simp [iterate, hierarchy, isComplete, hnan, finish] at hit
        obtain ⟨rfl, -⟩ := hit
        intro r hr
        simp [iterateTrace, hierarchy, isComplete, hnan] at hr
        rcases hr with rfl | rfl | rfl
        · exact ⟨_, hs, hh⟩
        · exact ⟨_, hs, .inr ⟨htw, .inr (.inr ⟨rfl, rfl, rfl, rfl, v, rfl, rfl⟩)⟩⟩
        · exact ⟨_, hmono hK, .inr ⟨htw, .inl ⟨rfl, .inl rfl, rfl, rfl, rfl, rfl, rfl⟩⟩⟩

/-- A tuning with interruptions needs as many calls, unless it is left with voltages to be set and a suggestion that is still to be made. -/
theorem StandsFor.completes {N : Nat} : ∀ {s' s : Autotuner.State (OneTuner X n) (Volt (Fin n)) (Volt (Fin n))},
    StandsFor I lstsq S.outs s' s → (s'.status = true → s'.pending = none) → CompletesWithin S I lstsq N s →
    CompletesWithin S I lstsq N s' := by
  have hstep : ∀ {s s' : Autotuner.State (OneTuner X n) (Volt (Fin n)) (Volt (Fin n))} {N : Nat},
      (iterate (hierarchy I lstsq S.outs) (.ok ()) s).1 = s' → (iterate (hierarchy I lstsq S.outs) (.ok ()) s).2.2 = .ok () →
      CompletesWithin S I lstsq N s' → CompletesWithin S I lstsq (N + 1) s := by
    rintro s s' N h1 h2 ⟨M, hM, s'', hs'', hc⟩
    refine ⟨M + 1, by omega, s'', ?_, hc⟩
    rw [iterates]
    rcases hi : iterate (hierarchy I lstsq S.outs) (.ok ()) s with ⟨s₁, ev, r⟩
    rw [hi] at h1 h2
    simp only at h1 h2
    subst h1 h2
    exact hs''
  induction N with
  | zero =>
    rintro ⟨w', x', i', st', pd'⟩ s h hgood ⟨M, hM, s₂, hs, hcomp, q, hq, hmet⟩
    obtain rfl : M = 0 := by omega
    simp only [iterates, Except.ok.injEq] at hs
    subst hs
    have hne : s.index = 1 := by simpa [isComplete, hierarchy] using hcomp
    rcases h with ⟨t, b, -, h1, -⟩ | ⟨htw, ⟨h1, -, h2, -, -, -, -⟩ | ⟨-, h1, -⟩ | ⟨-, h1, -⟩⟩
    · omega
    · simp only at h1 h2
      exact ⟨0, le_refl _, _, rfl, by simp [isComplete, hierarchy, h1, hne], q, h2.trans hq, hmet⟩
    · omega
    · omega
  | succ N ih =>
    rintro ⟨w', x', i', st', pd'⟩ ⟨w, x, i, st, pd⟩ h hgood hs
    have heval : ∀ {x : Volt (Fin n)}, StandsFor I lstsq S.outs ⟨w', x, 0, false, none⟩ ⟨w, x, 0, false, none⟩ →
        CompletesWithin S I lstsq (N + 1) ⟨w, x, 0, false, none⟩ → CompletesWithin S I lstsq (N + 1) ⟨w', x, 0, false, none⟩ := by
      intro x h hs
      obtain ⟨t₁, t₁', b, k0, k1, k2, k3⟩ := h.evaluates hI hs
      obtain ⟨K, hKN, s₁, ev, hit, hK⟩ := hs.step rfl
      obtain rfl : N = K := by omega
      cases b with
      | false =>
        simp [iterate, hierarchy, isComplete, k1, finish] at hit
        obtain ⟨rfl, -⟩ := hit
        refine hstep (s' := ⟨t₁', x, 0, true, none⟩) ?_ ?_
          (ih (s := ⟨t₁, x, 0, true, none⟩) (.inr ⟨k3, .inr (.inl ⟨rfl, rfl, rfl, rfl, rfl, .inl rfl⟩)⟩) (fun _ => rfl) hK) <;>
          simp [iterate, hierarchy, isComplete, k2, finish]
      | true =>
        simp [iterate, hierarchy, isComplete, k1, finish] at hit
        obtain ⟨rfl, -⟩ := hit
        refine hstep (s' := ⟨t₁', x, 1, false, none⟩) ?_ ?_
          (ih (s := ⟨t₁, x, 1, false, none⟩) (.inr ⟨k3, .inl ⟨rfl, .inr rfl, rfl, rfl, rfl, rfl, rfl⟩⟩) (fun _ => rfl) hK) <;>
          simp [iterate, hierarchy, isComplete, k2, finish]
    have hh := h
    rcases h with ⟨t, b, rfl, rfl, rfl, rfl, rfl, rfl, rfl, -⟩ | ⟨htw, hc⟩
    · exact heval hh hs
    · simp only at htw hc hgood
      rcases hc with ⟨rfl, hi, rfl, rfl, rfl, rfl, rfl⟩ | ⟨rfl, rfl, rfl, rfl, rfl, hp⟩ | ⟨rfl, rfl, rfl, rfl, v, rfl, rfl⟩
      · rcases hi with rfl | rfl
        · exact heval hh hs
        · obtain ⟨M, hM, s₂, hs, hcomp, q, hq, hmet⟩ := hs
          cases M with
          | zero =>
            simp only [iterates, Except.ok.injEq] at hs
            subst hs
            exact ⟨0, by omega, _, rfl, rfl, q, hq, hmet⟩
          | succ M =>
            rw [iterates] at hs
            simp [iterate, hierarchy, isComplete] at hs
      · obtain ⟨K, hKN, s₁, ev, hit, hK⟩ := hs.step rfl
        obtain rfl : N = K := by omega
        obtain rfl : pd' = none := hgood rfl
        obtain ⟨k1, k2⟩ := htw.next hI (lstsq := lstsq)
        obtain ⟨-, k3⟩ := htw.refl.next hI (lstsq := lstsq)
        rcases hq' : nextVoltages (Newton.solver I lstsq) [] w' with ⟨t', r'⟩
        rcases hq : nextVoltages (Newton.solver I lstsq) [] w with ⟨t, b⟩
        rw [hq', hq] at k1
        rw [hq'] at k2
        rw [hq] at k3
        simp only at k1 k2 k3
        subst k1 k2 k3
        rcases r' with e | v
        · simp [iterate, hierarchy, isComplete, hq] at hit
        · simp [iterate, hierarchy, isComplete, hq, finish] at hit
          obtain ⟨rfl, -⟩ := hit
          refine hstep (s' := ⟨t', x', 0, false, some v⟩) ?_ ?_
            (ih (s := ⟨t, x, 0, false, some v⟩) (.inr ⟨htw, .inr (.inr ⟨rfl, rfl, rfl, rfl, v, rfl, rfl⟩)⟩) (by simp) hK) <;>
            simp [iterate, hierarchy, isComplete, hq', finish]
      · obtain ⟨K, hKN, s₁, ev, hit, hK⟩ := hs.step rfl
        obtain rfl : N = K := by omega
        by_cases hnan : ∃ i, v i = none
        · simp [iterate, hierarchy, isComplete, hnan] at hit
        · simp [iterate, hierarchy, isComplete, hnan, finish] at hit
          obtain ⟨rfl, -⟩ := hit
          refine hstep (s' := ⟨w', v, 0, false, none⟩) ?_ ?_
            (ih (s := ⟨w, v, 0, false, none⟩) (.inr ⟨htw, .inl ⟨rfl, .inl rfl, rfl, rfl, rfl, rfl, rfl⟩⟩) (by simp) hK) <;>
            simp [iterate, hierarchy, isComplete, hnan, finish]

/-- In any case one call more is enough. -/
theorem StandsFor.completes_add {N : Nat} {s' s : Autotuner.State (OneTuner X n) (Volt (Fin n)) (Volt (Fin n))}
    (h : StandsFor I lstsq S.outs s' s) (hs : CompletesWithin S I lstsq N s) : CompletesWithin S I lstsq (N + 1) s' := by
  by_cases hgood : s'.status = true → s'.pending = none
  · obtain ⟨M, hM, hc⟩ := h.completes hI hgood hs
    exact ⟨M, by omega, hc⟩
  · obtain ⟨w', x', i', st', pd'⟩ := s'
    obtain ⟨w, x, i, st, pd⟩ := s
    simp only at hgood
    rcases h with ⟨t, b, -, -, -, -, -, rfl, -⟩ |
      ⟨htw, ⟨-, -, -, -, -, rfl, -⟩ | ⟨rfl, rfl, rfl, rfl, rfl, rfl | ⟨v, rfl, hv⟩⟩ | ⟨-, -, rfl, -⟩⟩
    · simp at hgood
    · simp at hgood
    · simp at hgood
    · -- the voltages are written in the tuning without interruptions too
      have hnan : ¬ ∃ i, v i = none := by
        intro hnan
        obtain ⟨K, rfl, s₁, ev, hit, hK⟩ := hs.step rfl
        rcases hq : nextVoltages (Newton.solver I lstsq) [] w with ⟨t, b⟩
        simp only at hv
        rw [hq] at hv
        simp only at hv
        subst hv
        simp [iterate, hierarchy, isComplete, hq, finish] at hit
        obtain ⟨rfl, -⟩ := hit
        obtain ⟨K, rfl, s₂, ev, hit, -⟩ := hK.step rfl
        simp [iterate, hierarchy, isComplete, hnan] at hit
      obtain ⟨M, hM, s₂, hs₂, hc⟩ := StandsFor.completes hI (s' := ⟨w', v, 0, true, none⟩)
        (.inr ⟨htw, .inr (.inl ⟨rfl, rfl, rfl, rfl, rfl, .inl rfl⟩)⟩) (fun _ => rfl) hs
      refine ⟨M + 1, by omega, s₂, ?_, hc⟩
      rw [iterates]
      simp [iterate, hierarchy, isComplete, hnan, finish]
      exact hs₂
    · simp at hgood

theorem StandsFor.acts {N : Nat} (l : List (Act (Volt (Fin n)) Unit)) :
    ∀ {s' s : Autotuner.State (OneTuner X n) (Volt (Fin n)) (Volt (Fin n))}, StandsFor I lstsq S.outs s' s → CompletesWithin S I lstsq N s →
      OnlyIterates l → ∃ s₂, CompletesWithin S I lstsq N s₂ ∧ StandsFor I lstsq S.outs (Autotuner.acts (hierarchy I lstsq S.outs) s' l).1 s₂ := by
  induction l with
  | nil =>
    intro s' s h hs _
    exact ⟨s, hs, h⟩
  | cons a l ih =>
    intro s' s h hs hall
    have htr := h.trace hI hs
    have : ∃ s₂, CompletesWithin S I lstsq N s₂ ∧ StandsFor I lstsq S.outs (Autotuner.act (hierarchy I lstsq S.outs) s' a).1 s₂ := by
      rcases hall a (List.mem_cons_self ..) with ⟨save, rfl⟩ | ⟨k, rfl⟩
      · obtain ⟨r, hr, hst, -⟩ := uninterrupted_iterate (hierarchy I lstsq S.outs) save s'
        have : (Autotuner.act (hierarchy I lstsq S.outs) s' (.call (.iterate save))).1 = (iterate (hierarchy I lstsq S.outs) save s').1 := rfl
        rw [this, hst]
        exact htr r (List.mem_of_getLast? hr)
      · simp only [Autotuner.act, stopAt]
        split
        · rename_i r hr
          exact htr r (List.mem_of_getElem? hr)
        · cases hr : (iterateTrace (hierarchy I lstsq S.outs) s').getLast? with
          | none => exact ⟨s, hs, h⟩
          | some r => exact htr r (List.mem_of_getLast? hr)
    obtain ⟨s₂, hs₂, h₂⟩ := this
    exact ih h₂ hs₂ fun b hb => hall b (List.mem_cons_of_mem _ hb)

end

end Qtune.EndToEnd
