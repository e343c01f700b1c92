import Verif.EndToEnd.StoppedSame
import Verif.EndToEnd.StoppedSpec

/-! # Interrupted calls that do not come between an evaluation and its note -/

namespace Qtune.EndToEnd

open Qtune.Tuner Qtune.Gradient Qtune.Autotuner

variable {n m : Nat} {X Y : Type}

/-- `s` is a state of the tuning without interruptions, `s'` one of the tuning with interruptions that stands for it. -/
def Stands (F : X → Y) (I : Newton.EstI X (Fin n)) (lstsq : Newton.Lstsq (Fin n))
    (s' s : Autotuner.State (OneTuner X n) (Volt (Fin n)) (Volt (Fin n))) : Prop :=
  Alike F s'.tuners s.tuners ∧
    ((s'.index = s.index ∧ (s.index = 0 ∨ s.index = 1) ∧ s'.expt = s.expt ∧ s'.pending = none ∧ s.pending = none ∧ s'.status = false ∧
        s.status = false) ∨
     (s'.index = 0 ∧ s.index = 0 ∧ s'.status = true ∧ s.status = true ∧ s.pending = none ∧
        (s'.pending = none ∨ ∃ v, s'.pending = some v ∧ (nextVoltages (Newton.solver I lstsq) [] s.tuners).2 = .ok v)) ∨
     (s'.index = 0 ∧ s.index = 0 ∧ s'.status = false ∧ s.status = false ∧ ∃ v, s'.pending = some v ∧ s.pending = some v))

theorem Alike.both {F : X → Y} {t₁ t₂ t : OneTuner X n} (h₁ : Alike F t₁ t) (h₂ : Alike F t₂ t) : Alike F t₁ t₂ := by
  obtain ⟨e1, e2, e3, e4⟩ := h₁
  obtain ⟨f1, f2, f3, f4⟩ := h₂
  refine ⟨?_, e2.trans f2.symm, ?_, ?_⟩
  · rw [f1]
    exact e1
  · have := congrArg List.length f2
    simp at this
    rw [f1]
    simp only
    omega
  · rw [f1]
    exact f4

theorem CompletesWithin.step {S : Setup n m} {I : Newton.EstI X (Fin n)} {lstsq : Newton.Lstsq (Fin n)} {N : Nat}
    {s : Autotuner.State (OneTuner X n) (Volt (Fin n)) (Volt (Fin n))} (h : CompletesWithin S I lstsq N s)
    (hi : s.index = 0) : ∃ K, N = K + 1 ∧ ∃ s₁ ev, iterate (hierarchy I lstsq S.outs) (.ok ()) s = (s₁, ev, .ok ()) ∧
      CompletesWithin S I lstsq K s₁ := by
  obtain ⟨M, hM, s', hs, hc⟩ := h
  cases M with
  | zero =>
    simp only [iterates, Except.ok.injEq] at hs
    subst hs
    exact absurd hc.1 (by simp [isComplete, hierarchy, hi])
  | succ M =>
    rw [iterates] at hs
    rcases hq : iterate (hierarchy I lstsq S.outs) (.ok ()) s with ⟨s₁, ev, r⟩
    rw [hq] at hs
    rcases r with e | u
    · cases hs
    · exact ⟨N - 1, by omega, s₁, ev, rfl, M, by omega, s', hs, hc⟩

section
variable {F : X → Y} {S : Setup n m} {I : Newton.EstI X (Fin n)} {lstsq : Newton.Lstsq (Fin n)} (hI : Repeatable I F)
include hI

/-- One call of `iterate`, and the states in which it may be interrupted. -/
theorem Stands.trace {N : Nat} {s' s : Autotuner.State (OneTuner X n) (Volt (Fin n)) (Volt (Fin n))}
    (h : Stands F I lstsq s' s) (hs : CompletesWithin S I lstsq N s) :
    ∀ k r, (iterateTrace (hierarchy I lstsq S.outs) s')[k]? = some r → (s'.pending = none → s'.status = false → k ≠ 1) →
      ∃ s₂, CompletesWithin S I lstsq N s₂ ∧ Stands F I lstsq r.1 s₂ := by
  have hh := h
  obtain ⟨w', x', i', st', pd'⟩ := s'
  obtain ⟨w, x, i, st, pd⟩ := s
  obtain ⟨hsame, hc⟩ := h
  simp only at hsame hc
  intro k r hk hallow
  have hmono : ∀ {s : Autotuner.State (OneTuner X n) (Volt (Fin n)) (Volt (Fin n))} {K : Nat}, CompletesWithin S I lstsq K s →
      CompletesWithin S I lstsq (K + 1) s := by
    rintro s K ⟨M, hM, h⟩
    exact ⟨M, by omega, h⟩
  rcases hc with ⟨rfl, hi, rfl, rfl, rfl, rfl, rfl⟩ | ⟨rfl, rfl, rfl, rfl, rfl, hp⟩ | ⟨rfl, rfl, rfl, rfl, v, rfl, rfl⟩
  · rcases hi with rfl | rfl
    · obtain ⟨K, rfl, s₁, ev, hit, hK⟩ := hs.step rfl
      obtain ⟨k1, k2⟩ := hsame.eval hI (lstsq := lstsq) (S.outs x') x'
      rcases hq' : isTuned (Newton.solver I lstsq) (S.outs x') x' w' with ⟨t', r'⟩
      rcases hq : isTuned (Newton.solver I lstsq) (S.outs x') x' w with ⟨t, b⟩
      rw [hq', hq] at k1 k2
      simp only at k1 k2
      subst k1
      rcases r' with e | (_ | _)
      · simp [iterate, hierarchy, isComplete, hq] at hit
      · simp [iterate, hierarchy, isComplete, hq, finish] at hit
        obtain ⟨rfl, -⟩ := hit
        simp [iterateTrace, hierarchy, isComplete, hq'] at hk
        rcases k with _ | _ | _ | k
        · simp at hk
          subst hk
          exact ⟨_, hs, hh⟩
        · exact absurd rfl (hallow rfl rfl)
        · simp at hk
          subst hk
          exact ⟨_, hmono hK, k2, .inr (.inl ⟨rfl, rfl, rfl, rfl, rfl, .inl rfl⟩)⟩
        · simp at hk
      · simp [iterate, hierarchy, isComplete, hq, finish] at hit
        obtain ⟨rfl, -⟩ := hit
        simp [iterateTrace, hierarchy, isComplete, hq'] at hk
        rcases k with _ | _ | _ | k
        · simp at hk
          subst hk
          exact ⟨_, hs, hh⟩
        · exact absurd rfl (hallow rfl rfl)
        · simp at hk
          subst hk
          exact ⟨_, hmono hK, k2, .inl ⟨rfl, .inr rfl, rfl, rfl, rfl, rfl, rfl⟩⟩
        · simp at hk
    · simp [iterateTrace, hierarchy, isComplete] at hk
      rcases k with _ | k
      · simp at hk
        subst hk
        exact ⟨_, hs, hh⟩
      · simp at hk
  · obtain ⟨K, rfl, s₁, ev, hit, hK⟩ := hs.step rfl
    obtain ⟨k1, k2⟩ := hsame.next hI (lstsq := lstsq)
    obtain ⟨-, k3⟩ := Alike.next hI (lstsq := lstsq) (⟨rfl, rfl, hsame.length, hsame.maxStep⟩ : Alike F w w)
    rcases hq' : nextVoltages (Newton.solver I lstsq) [] w' with ⟨t', r'⟩
    rcases hq : nextVoltages (Newton.solver I lstsq) [] w with ⟨t, b⟩
    rw [hq', hq] at k1
    rw [hq'] at k2
    rw [hq] at k3
    simp only at k1 k2 k3
    subst k1
    rcases r' with e | v
    · simp [iterate, hierarchy, isComplete, hq] at hit
    · simp [iterate, hierarchy, isComplete, hq, finish] at hit
      obtain ⟨rfl, -⟩ := hit
      -- the tuners after the suggestions
      have hboth : Alike F t' t := k2.both k3
      rcases hp with rfl | ⟨v', rfl, hv'⟩
      · simp [iterateTrace, hierarchy, isComplete, hq'] at hk
        rcases k with _ | _ | _ | _ | k
        · simp at hk
          subst hk
          exact ⟨_, hs, hh⟩
        · simp at hk
          subst hk
          exact ⟨_, hs, k2, .inr (.inl ⟨rfl, rfl, rfl, rfl, rfl, .inl rfl⟩)⟩
        · simp at hk
          subst hk
          exact ⟨_, hs, k2, .inr (.inl ⟨rfl, rfl, rfl, rfl, rfl, .inr ⟨v, rfl, by rw [hq]⟩⟩)⟩
        · simp at hk
          subst hk
          exact ⟨_, hmono hK, hboth, .inr (.inr ⟨rfl, rfl, rfl, rfl, v, rfl, rfl⟩)⟩
        · simp at hk
      · have hv : v' = v := by
          rw [hq] at hv'
          simpa using hv'.symm
        subst hv
        by_cases hnan : ∃ i, v' i = none
        · simp [iterateTrace, hierarchy, isComplete, hnan] at hk
          rcases k with _ | k
          · simp at hk
            subst hk
            exact ⟨_, hs, hh⟩
          · simp at hk
        · simp [iterateTrace, hierarchy, isComplete, hnan] at hk
          rcases k with _ | _ | _ | _ | k
          · simp at hk
            subst hk
            exact ⟨_, hs, hh⟩
          · simp at hk
            subst hk
            exact ⟨_, hs, hsame, .inr (.inl ⟨rfl, rfl, rfl, rfl, rfl, .inr ⟨v', rfl, by rw [hq]⟩⟩)⟩
          · simp at hk
            subst hk
            exact ⟨_, hs, hsame, .inr (.inl ⟨rfl, rfl, rfl, rfl, rfl, .inr ⟨v', rfl, by rw [hq]⟩⟩)⟩
          · simp at hk
            subst hk
            exact ⟨_, hs, hsame, .inr (.inl ⟨rfl, rfl, rfl, rfl, rfl, .inl rfl⟩)⟩
          · simp at hk
  · obtain ⟨K, rfl, s₁, ev, hit, hK⟩ := hs.step rfl
    by_cases hnan : ∃ i, v i = none
    · simp [iterate, hierarchy, isComplete, hnan] at hit
    · simp [iterate, hierarchy, isComplete, hnan, finish] at hit
      obtain ⟨rfl, -⟩ := hit
      simp [iterateTrace, hierarchy, isComplete, hnan] at hk
      rcases k with _ | _ | _ | _ | k
      · simp at hk
        subst hk
        exact ⟨_, hs, hh⟩
      · simp at hk
        subst hk
        exact ⟨_, hs, hsame, .inr (.inr ⟨rfl, rfl, rfl, rfl, v, rfl, rfl⟩)⟩
      · simp at hk
        subst hk
        exact ⟨_, hs, hsame, .inr (.inr ⟨rfl, rfl, rfl, rfl, v, rfl, rfl⟩)⟩
      · simp at hk
        subst hk
        exact ⟨_, hmono hK, hsame, .inl ⟨rfl, .inl rfl, rfl, rfl, rfl, rfl, rfl⟩⟩
      · simp at hk

/-- A tuning with interruptions needs as many calls, unless it is left with voltages to be set and a suggestion that is still to be made. -/
theorem Stands.completes {N : Nat} : ∀ {s' s : Autotuner.State (OneTuner X n) (Volt (Fin n)) (Volt (Fin n))},
    Stands F I lstsq s' s → (s'.status = true → s'.pending = none) → CompletesWithin S I lstsq N s → CompletesWithin S I lstsq N s' := by
  have hstep : ∀ {s s' : Autotuner.State (OneTuner X n) (Volt (Fin n)) (Volt (Fin n))} {N : Nat},
      (iterate (hierarchy I lstsq S.outs) (.ok ()) s).1 = s' → (iterate (hierarchy I lstsq S.outs) (.ok ()) s).2.2 = .ok () →
      CompletesWithin S I lstsq N s' → CompletesWithin S I lstsq (N + 1) s := by
    rintro s s' N h1 h2 ⟨M, hM, s'', hs'', hc⟩
    refine ⟨M + 1, by omega, s'', ?_, hc⟩
    rw [iterates]
    rcases hi : iterate (hierarchy I lstsq S.outs) (.ok ()) s with ⟨s₁, ev, r⟩
    rw [hi] at h1 h2
    simp only at h1 h2
    subst h1 h2
    exact hs''
  induction N with
  | zero =>
    rintro ⟨w', x', i', st', pd'⟩ s ⟨hsame, hc⟩ hgood ⟨M, hM, s₂, hs, hcomp, q, hq, hmet⟩
    obtain rfl : M = 0 := by omega
    simp only [iterates, Except.ok.injEq] at hs
    subst hs
    have hne : s.index = 1 := by simpa [isComplete, hierarchy] using hcomp
    rcases hc with ⟨h1, -, h2, -, -, -, -⟩ | ⟨-, h1, -⟩ | ⟨-, h1, -⟩
    · simp only at h1 h2
      exact ⟨0, le_refl _, _, rfl, by simp [isComplete, hierarchy, h1, hne], q, h2.trans hq, hmet⟩
    · omega
    · omega
  | succ N ih =>
    rintro ⟨w', x', i', st', pd'⟩ ⟨w, x, i, st, pd⟩ ⟨hsame, hc⟩ hgood hs
    simp only at hsame hc hgood
    rcases hc with ⟨rfl, hi, rfl, rfl, rfl, rfl, rfl⟩ | ⟨rfl, rfl, rfl, rfl, rfl, hp⟩ | ⟨rfl, rfl, rfl, rfl, v, rfl, rfl⟩
    · rcases hi with rfl | rfl
      · obtain ⟨K, hKN, s₁, ev, hit, hK⟩ := hs.step rfl
        obtain rfl : N = K := by omega
        obtain ⟨k1, k2⟩ := hsame.eval hI (lstsq := lstsq) (S.outs x') x'
        rcases hq' : isTuned (Newton.solver I lstsq) (S.outs x') x' w' with ⟨t', r'⟩
        rcases hq : isTuned (Newton.solver I lstsq) (S.outs x') x' w with ⟨t, b⟩
        rw [hq', hq] at k1 k2
        simp only at k1 k2
        subst k1
        rcases r' with e | (_ | _)
        · simp [iterate, hierarchy, isComplete, hq] at hit
        · simp [iterate, hierarchy, isComplete, hq, finish] at hit
          obtain ⟨rfl, -⟩ := hit
          refine hstep (s' := ⟨t', x', 0, true, none⟩) ?_ ?_
            (ih (s := ⟨t, x', 0, true, none⟩) ⟨k2, .inr (.inl ⟨rfl, rfl, rfl, rfl, rfl, .inl rfl⟩)⟩ (fun _ => rfl) hK) <;>
            simp [iterate, hierarchy, isComplete, hq', finish]
        · simp [iterate, hierarchy, isComplete, hq, finish] at hit
          obtain ⟨rfl, -⟩ := hit
          refine hstep (s' := ⟨t', x', 1, false, none⟩) ?_ ?_
            (ih (s := ⟨t, x', 1, false, none⟩) ⟨k2, .inl ⟨rfl, .inr rfl, rfl, rfl, rfl, rfl, rfl⟩⟩ (fun _ => rfl) hK) <;>
            simp [iterate, hierarchy, isComplete, hq', finish]
      · obtain ⟨M, hM, s₂, hs, hcomp, q, hq, hmet⟩ := hs
        cases M with
        | zero =>
          simp only [iterates, Except.ok.injEq] at hs
          subst hs
          exact ⟨0, by omega, _, rfl, rfl, q, hq, hmet⟩
        | succ M =>
          rw [iterates] at hs
          simp [iterate, hierarchy, isComplete] at hs
    · obtain ⟨K, hKN, s₁, ev, hit, hK⟩ := hs.step rfl
      obtain rfl : N = K := by omega
      obtain rfl : pd' = none := hgood rfl
      obtain ⟨k1, k2⟩ := hsame.next hI (lstsq := lstsq)
      obtain ⟨-, k3⟩ := Alike.next hI (lstsq := lstsq) (⟨rfl, rfl, hsame.length, hsame.maxStep⟩ : Alike F w w)
      rcases hq' : nextVoltages (Newton.solver I lstsq) [] w' with ⟨t', r'⟩
      rcases hq : nextVoltages (Newton.solver I lstsq) [] w with ⟨t, b⟩
      rw [hq', hq] at k1
      rw [hq'] at k2
      rw [hq] at k3
      simp only at k1 k2 k3
      subst k1
      rcases r' with e | v
      · simp [iterate, hierarchy, isComplete, hq] at hit
      · simp [iterate, hierarchy, isComplete, hq, finish] at hit
        obtain ⟨rfl, -⟩ := hit
        refine hstep (s' := ⟨t', x', 0, false, some v⟩) ?_ ?_
          (ih (s := ⟨t, x, 0, false, some v⟩) ⟨k2.both k3, .inr (.inr ⟨rfl, rfl, rfl, rfl, v, rfl, rfl⟩)⟩ (by simp) hK) <;>
          simp [iterate, hierarchy, isComplete, hq', finish]
    · obtain ⟨K, hKN, s₁, ev, hit, hK⟩ := hs.step rfl
      obtain rfl : N = K := by omega
      by_cases hnan : ∃ i, v i = none
      · simp [iterate, hierarchy, isComplete, hnan] at hit
      · simp [iterate, hierarchy, isComplete, hnan, finish] at hit
        obtain ⟨rfl, -⟩ := hit
        refine hstep (s' := ⟨w', v, 0, false, none⟩) ?_ ?_
          (ih (s := ⟨w, v, 0, false, none⟩) ⟨hsame, .inl ⟨rfl, .inl rfl, rfl, rfl, rfl, rfl, rfl⟩⟩ (by simp) hK) <;>
          simp [iterate, hierarchy, isComplete, hnan, finish]

/-- In any case one call more is enough. -/
theorem Stands.completes_add {N : Nat} {s' s : Autotuner.State (OneTuner X n) (Volt (Fin n)) (Volt (Fin n))}
    (h : Stands F I lstsq s' s) (hs : CompletesWithin S I lstsq N s) : CompletesWithin S I lstsq (N + 1) s' := by
  by_cases hgood : s'.status = true → s'.pending = none
  · obtain ⟨M, hM, hc⟩ := h.completes hI hgood hs
    exact ⟨M, by omega, hc⟩
  · obtain ⟨w', x', i', st', pd'⟩ := s'
    obtain ⟨w, x, i, st, pd⟩ := s
    obtain ⟨hsame, hc⟩ := h
    simp only at hsame hc hgood
    rcases hc with ⟨-, -, -, -, -, rfl, -⟩ | ⟨rfl, rfl, rfl, rfl, rfl, rfl | ⟨v, rfl, hv⟩⟩ | ⟨-, -, rfl, -⟩
    · simp at hgood
    · simp at hgood
    · -- the voltages are written in the reference too
      have hnan : ¬ ∃ i, v i = none := by
        intro hnan
        obtain ⟨K, rfl, s₁, ev, hit, hK⟩ := hs.step rfl
        rcases hq : nextVoltages (Newton.solver I lstsq) [] w with ⟨t, b⟩
        rw [hq] at hv
        simp only at hv
        subst hv
        simp [iterate, hierarchy, isComplete, hq, finish] at hit
        obtain ⟨rfl, -⟩ := hit
        obtain ⟨K, rfl, s₂, ev, hit, -⟩ := hK.step rfl
        simp [iterate, hierarchy, isComplete, hnan] at hit
      obtain ⟨M, hM, s₂, hs₂, hc⟩ := Stands.completes hI (s' := ⟨w', v, 0, true, none⟩) ⟨hsame, .inr (.inl ⟨rfl, rfl, rfl, rfl, rfl, .inl rfl⟩)⟩
        (fun _ => rfl) hs
      refine ⟨M + 1, by omega, s₂, ?_, hc⟩
      rw [iterates]
      simp [iterate, hierarchy, isComplete, hnan, finish]
      exact hs₂
    · simp at hgood

end

theorem Stands.acts {F : X → Y} {S : Setup n m} {I : Newton.EstI X (Fin n)} {lstsq : Newton.Lstsq (Fin n)} (hI : Repeatable I F)
    {N : Nat} (l : List (Act (Volt (Fin n)) Unit)) :
    ∀ {s' s : Autotuner.State (OneTuner X n) (Volt (Fin n)) (Volt (Fin n))}, Stands F I lstsq s' s → CompletesWithin S I lstsq N s →
      (∀ a ∈ l, (∃ save, a = .call (.iterate save)) ∨ ∃ k, a = .iterateStopped k) → Noted (hierarchy I lstsq S.outs) s' l →
      ∃ s₂, CompletesWithin S I lstsq N s₂ ∧ Stands F I lstsq (Autotuner.acts (hierarchy I lstsq S.outs) s' l).1 s₂ := by
  induction l with
  | nil =>
    intro s' s h hs _ _
    exact ⟨s, hs, h⟩
  | cons a l ih =>
    intro s' s h hs hall hn
    obtain ⟨hn1, hn2⟩ := hn
    -- the last state of the call
    have hlast : ∀ r, (iterateTrace (hierarchy I lstsq S.outs) s').getLast? = some r →
        ∃ s₂, CompletesWithin S I lstsq N s₂ ∧ Stands F I lstsq r.1 s₂ := by
      intro r hr
      rw [List.getLast?_eq_getElem?] at hr
      refine h.trace hI hs _ r hr fun hp hst hk => ?_
      -- a call that evaluates has three states
      obtain ⟨w', x', i', st', pd'⟩ := s'
      obtain ⟨w, x, i, st, pd⟩ := s
      obtain ⟨hsame, hc⟩ := h
      simp only at hsame hc hp hst
      subst hp hst
      rcases hc with ⟨rfl, hi, rfl, -, rfl, -, rfl⟩ | ⟨-, -, h, -⟩ | ⟨-, -, -, -, v, h, -⟩
      · rcases hi with rfl | rfl
        · obtain ⟨K, rfl, s₁, ev, hit, hK⟩ := hs.step rfl
          obtain ⟨k1, -⟩ := hsame.eval hI (lstsq := lstsq) (S.outs x') x'
          rcases hq' : isTuned (Newton.solver I lstsq) (S.outs x') x' w' with ⟨t', r'⟩
          rcases hq : isTuned (Newton.solver I lstsq) (S.outs x') x' w with ⟨t, b⟩
          rw [hq', hq] at k1
          simp only at k1
          subst k1
          rcases r' with e | (_ | _)
          · simp [iterate, hierarchy, isComplete, hq] at hit
          · simp [iterateTrace, hierarchy, isComplete, hq'] at hk
          · simp [iterateTrace, hierarchy, isComplete, hq'] at hk
        · simp [iterateTrace, hierarchy, isComplete] at hk
      · cases h
      · cases h
    have : ∃ s₂, CompletesWithin S I lstsq N s₂ ∧ Stands F I lstsq (Autotuner.act (hierarchy I lstsq S.outs) s' a).1 s₂ := by
      rcases hall a (List.mem_cons_self ..) with ⟨save, rfl⟩ | ⟨k, rfl⟩
      · obtain ⟨r, hr, hst, -⟩ := uninterrupted_iterate (hierarchy I lstsq S.outs) save s'
        have : (Autotuner.act (hierarchy I lstsq S.outs) s' (.call (.iterate save))).1 = (iterate (hierarchy I lstsq S.outs) save s').1 := rfl
        rw [this, hst]
        exact hlast r hr
      · simp only [Autotuner.act, stopAt]
        split
        · rename_i r hr
          refine h.trace hI hs k r hr fun hp hst hk => ?_
          subst hk
          exact hn1 hp hst rfl
        · cases hr : (iterateTrace (hierarchy I lstsq S.outs) s').getLast? with
          | none => exact ⟨s, hs, h⟩
          | some r => exact hlast r hr
    obtain ⟨s₂, hs₂, h₂⟩ := this
    exact ih h₂ hs₂ (fun b hb => hall b (List.mem_cons_of_mem _ hb)) hn2

end Qtune.EndToEnd
