import Verif.Ready.Spec
import Verif.EndToEnd.Props

/-! # Properties of `all_estimators_ready` -/

namespace Qtune.Ready

open Qtune.Tuner Qtune.Gradient Qtune.EndToEnd

variable {E ι : Type} {n : Nat}

/-- A second request has the same answer as the first one. -/
def Steady (I : Newton.EstI E ι) : Prop :=
  ∀ gates tj e, (I.require gates tj (I.require gates tj e).1).2 = (I.require gates tj e).2

theorem fd_steady (orth : Orth n) : Steady (fdI orth) := by
  intro gates tj e
  have : (FD.require orth gates (FD.require orth gates e).1).2 = (FD.require orth gates e).2 := by
    obtain ⟨pos, eps, sym, est, stored, requested⟩ := e
    unfold FD.require
    cases pos with
    | none => rfl
    | some c =>
      cases est with
      | some _ => rfl
      | none =>
        dsimp only
        cases h : nextPoint orth gates sym (stored.map fun m => restrict gates m.1) with
        | error err => dsimp only; rw [h]
        | ok next => dsimp only; rw [h]
  simp only [fdI]
  rw [this]

theorem kalman_steady (eigh : Kalman.Eigh) (nullspace : Kalman.Nullspace) :
    Steady (kalmanI (n := n) eigh nullspace) := fun _ _ _ => rfl

/-- What the inner loop does with one estimator. -/
theorem askEst_spec {I : Newton.EstI E ι} (hI : Steady I) (gates : List ι) (e : E) :
    ((I.require gates none e).2 = .ok none → (askEst I gates e).2 = .ok true) ∧
    (∀ p, (I.require gates none e).2 = .ok (some p) →
      (askEst I gates e).2 = .ok (open Classical in decide (∀ i, p i = none))) ∧
    (∀ err, (I.require gates none e).2 = .error err → (askEst I gates e).2 = .error err) := by
  have h2 := hI gates none e
  unfold askEst
  rcases hr : I.require gates none e with ⟨e', r⟩
  rw [hr] at h2
  dsimp only at h2
  refine ⟨?_, ?_, ?_⟩
  · intro h
    dsimp only at h
    subst h
    rfl
  · intro p h
    dsimp only at h
    subst h
    rcases hr2 : I.require gates none e' with ⟨e'', r''⟩
    rw [hr2] at h2
    dsimp only at h2
    subst h2
    simp only [hr2]
  · intro err h
    dsimp only at h
    subst h
    rfl

theorem askAll_true {I : Newton.EstI E ι} (hI : Steady I) (gates : List ι) (es : List E) :
    (askAll I gates es).2 = .ok true ↔ ∀ e ∈ es, (askEst I gates e).2 = .ok true := by
  induction es with
  | nil => simp [askAll]
  | cons e es ih =>
    rw [List.forall_mem_cons, ← ih]
    conv_lhs => unfold askAll
    rcases hr : askEst I gates e with ⟨e', err | b⟩
    · simp
    · cases b <;> simp

theorem allReady_true {I : Newton.EstI E ι} (hI : Steady I) (ss : List (Option (Newton.State E ι))) :
    (allReady I ss).2 = .ok true ↔
      ∀ s, some s ∈ ss → ∀ e ∈ s.ests, (askEst I s.gates e).2 = .ok true := by
  induction ss with
  | nil => simp [allReady]
  | cons s ss ih =>
    cases s with
    | none =>
      unfold allReady
      simp only [List.mem_cons, reduceCtorEq, false_or]
      exact ih
    | some s =>
      have h1 := askAll_true hI s.gates s.ests
      have : (∀ s', some s' ∈ some s :: ss → ∀ e ∈ s'.ests, (askEst I s'.gates e).2 = .ok true) ↔
          (∀ e ∈ s.ests, (askEst I s.gates e).2 = .ok true) ∧
          ∀ s', some s' ∈ ss → ∀ e ∈ s'.ests, (askEst I s'.gates e).2 = .ok true := by
        constructor
        · intro h
          exact ⟨h s List.mem_cons_self, fun s' hs' => h s' (List.mem_cons_of_mem _ hs')⟩
        · rintro ⟨ha, hb⟩ s' hs'
          rcases List.mem_cons.1 hs' with h | h
          · cases h; exact ha
          · exact hb s' h
      rw [this, ← h1, ← ih]
      conv_lhs => unfold allReady
      rcases hr : askAll I s.gates s.ests with ⟨es, err | b⟩
      · simp
      · cases b <;> simp

/-- **C106**, the case in which it holds.  If all parameters have set points and no request is empty,
`all_estimators_ready` is `True` exactly if no estimator of any Newton solver requires a measurement, so
that every one of them makes a Newton step next (`newton_step_without_requests`).
Missing: parameters without set point, see `estimators_ready_refuted`, and calls before the first
evaluation, see `estimators_ready_raises_refuted`. -/
theorem estimators_ready_partial {I : Newton.EstI E ι} (hI : Steady I)
    (ss : List (Option (Newton.State E ι)))
    (hset : ∀ s, some s ∈ ss → s.ests.length = s.target.length ∧ ∀ r ∈ s.target, r.desired ≠ none)
    (hne : ∀ s, some s ∈ ss → ∀ e ∈ s.ests, ∀ p, (I.require s.gates none e).2 = .ok (some p) →
      ∃ i, p i ≠ none) :
    (allReady I ss).2 = .ok true ↔ ∀ s, some s ∈ ss → ∀ re ∈ s.target.zip s.ests,
      re.1.desired ≠ none → NothingRequired I s.gates re.2 := by
  rw [allReady_true hI]
  constructor
  · intro h s hs re hre _
    have he := (List.of_mem_zip hre).2
    have h3 := h s hs re.2 he
    rcases hr : (I.require s.gates none re.2).2 with err | (_ | p)
    · rw [(askEst_spec hI s.gates re.2).2.2 err hr] at h3
      cases h3
    · exact hr
    · rw [(askEst_spec hI s.gates re.2).2.1 p hr] at h3
      obtain ⟨i, hi⟩ := hne s hs re.2 he p hr
      simp only [Except.ok.injEq, decide_eq_true_eq] at h3
      exact absurd (h3 i) hi
  · intro h s hs e he
    obtain ⟨k, hk, rfl⟩ := List.getElem_of_mem he
    obtain ⟨hlen, hd⟩ := hset s hs
    have hmem : (s.target[k]'(by omega), s.ests[k]) ∈ s.target.zip s.ests := by
      rw [List.mem_iff_getElem]
      exact ⟨k, by simp; omega, by simp⟩
    exact (askEst_spec hI s.gates _).1 (h s hs _ hmem (hd _ (List.getElem_mem _)))

/-- The hypotheses on the estimators are met by finite differences on at least one gate. -/
theorem fd_request_not_empty (orth : Orth n) (gates : List (Fin n)) (hg : gates ≠ []) (e : FD n)
    (p : Fin n → Option Val) (h : ((fdI orth).require gates none e).2 = .ok (some p)) :
    ∃ i, p i ≠ none := by
  obtain ⟨g, gs, rfl⟩ := List.exists_cons_of_ne_nil hg
  refine ⟨g, ?_⟩
  simp only [fdI, FD.require] at h
  split at h
  · cases h
  · split at h
    · cases h
    · split at h
      · cases h
      · rename_i next _
        simp only [Except.map, Option.map_some, Except.ok.injEq, Option.some.injEq] at h
        subst h
        cases next <;> simp [request]

/-- … and by Kalman estimators. -/
theorem kalman_request_not_empty (eigh : Kalman.Eigh) (nullspace : Kalman.Nullspace)
    (gates : List (Fin (n + 1))) (e : Kalman.Est (n + 1)) (p : Fin (n + 1) → Option Val)
    (h : ((kalmanI eigh nullspace).require gates none e).2 = .ok (some p)) : ∃ i, p i ≠ none := by
  refine ⟨0, ?_⟩
  simp only [kalmanI, Except.ok.injEq, Option.map_eq_some_iff] at h
  obtain ⟨q, -, rfl⟩ := h
  simp

/-- A parameter `a` with set point and known gradient, and a parameter `b` without set point, whose
estimator is therefore never updated. -/
noncomputable def half (c : Vec 1) : Newton.State (FD 1) (Fin 1) :=
  ⟨[Newton.plainRow "a" (some 5), Newton.plainRow "b" none],
    [⟨some c, fun _ => 1, false, some (fun _ => some 2, none), [], []⟩, FD.new (some c) (fun _ => 1) false],
    [0], fun _ => some 0, [("a", some 1), ("b", some 1)]⟩

/-- **C106** is false: all estimators of parameters with set points require nothing, but
`all_estimators_ready` is `False`, because it also asks the estimators of the other parameters. -/
theorem estimators_ready_refuted (orth : Orth 1) (c : Vec 1) :
    (allReady (fdI orth) [some (half c)]).2 = .ok false ∧
    ∀ re ∈ (half c).target.zip (half c).ests, re.1.desired ≠ none →
      NothingRequired (fdI orth) (half c).gates re.2 := by
  constructor
  · simp [allReady, half, askAll, askEst, fdI, FD.require, FD.new, nextPoint, request, Except.map]
  · intro re hre hd
    simp only [half, List.zip_cons_cons, List.zip_nil_right, List.mem_cons, List.not_mem_nil,
      or_false] at hre
    rcases hre with rfl | rfl
    · simp [NothingRequired, fdI, FD.require, Except.map]
    · simp [Newton.plainRow] at hd

/-- **C106** is false: before the first evaluation, finite difference estimators that have been made
without a position raise `RuntimeError` instead of an answer. -/
theorem estimators_ready_raises_refuted (orth : Orth n) (eps : Vec n) (symmetric : Bool)
    (s : Newton.State (FD n) (Fin n)) (h : s.ests = [FD.new none eps symmetric]) :
    (allReady (fdI orth) [some s]).2 = .error (.runtimeError
      "No measurement can be requested before defining the current position.") := by
  simp [allReady, h, askAll, askEst, fdI, FD.require, FD.new, Except.map]

/-- A case that meets the hypotheses of `estimators_ready_partial` on both sides. -/
example (orth : Orth 1) (c : Vec 1) :
    let s := { half c with target := [Newton.plainRow "a" (some 5), Newton.plainRow "b" (some 6)] }
    (allReady (fdI orth) [none, some s]).2 ≠ .ok true ∧
    (allReady (fdI orth) [none, some { s with target := s.target.take 1, ests := s.ests.take 1 }]).2 =
      .ok true := by
  refine ⟨?_, ?_⟩
  · intro h
    rw [estimators_ready_partial (fd_steady orth)] at h
    · have := h { half c with target := [Newton.plainRow "a" (some 5), Newton.plainRow "b" (some 6)] }
        (by simp) (Newton.plainRow "b" (some 6), FD.new (some c) (fun _ => 1) false) (by simp [half])
        (by simp [Newton.plainRow])
      simp [NothingRequired, fdI, FD.require, FD.new, half, nextPoint, Except.map] at this
    · intro s hs
      simp only [List.mem_cons, reduceCtorEq, Option.some.injEq, List.not_mem_nil, or_false,
        false_or] at hs
      subst hs
      simp [half, Newton.plainRow]
    · intro s hs e he p hp
      simp only [List.mem_cons, reduceCtorEq, Option.some.injEq, List.not_mem_nil, or_false,
        false_or] at hs
      subst hs
      exact fd_request_not_empty orth _ (by simp [half]) e p hp
  · rw [estimators_ready_partial (fd_steady orth)]
    · intro s hs re hre _
      simp only [List.mem_cons, reduceCtorEq, Option.some.injEq, List.not_mem_nil, or_false,
        false_or] at hs
      subst hs
      simp only [half, List.take_succ_cons, List.take_zero, List.zip_cons_cons, List.zip_nil_right,
        List.mem_cons, List.not_mem_nil, or_false] at hre
      subst hre
      simp [NothingRequired, fdI, FD.require, Except.map]
    · intro s hs
      simp only [List.mem_cons, reduceCtorEq, Option.some.injEq, List.not_mem_nil, or_false,
        false_or] at hs
      subst hs
      simp [half, Newton.plainRow]
    · intro s hs e he p hp
      simp only [List.mem_cons, reduceCtorEq, Option.some.injEq, List.not_mem_nil, or_false,
        false_or] at hs
      subst hs
      exact fd_request_not_empty orth _ (by simp [half]) e p hp

end Qtune.Ready
