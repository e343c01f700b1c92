import Verif.Ready.Props
import Verif.Kalman.PropsIgnored
import Verif.Kalman.EstimatorTuned
import Verif.EndToEnd.Kalman

/-! # If `all_estimators_ready` is `True`, the next suggestion is a Newton step (C106) -/

namespace Qtune.Ready

open Qtune.Tuner Qtune.Gradient Qtune.EndToEnd Qtune.Kalman Matrix

variable {n : Nat}

theorem maxLimit_le {m : ℝ} : ∀ (l : List Limit), maxLimit l = .fin m → ∀ x ∈ l, ∃ y, x = .fin y ∧ y ≤ m
  | [], h => by simp [maxLimit] at h
  | [a], h => by
    intro x hx
    rw [List.mem_singleton] at hx
    subst hx
    exact ⟨m, h, le_rfl⟩
  | .inf :: b :: l, h => by simp [maxLimit] at h
  | .fin a :: b :: l, h => by
    have h' : (match maxLimit (b :: l) with
      | .inf => Limit.inf
      | .fin m' => .fin (max a m')) = .fin m := h
    rcases hm : maxLimit (b :: l) with m' | _
    · rw [hm] at h'
      cases h'
      intro x hx
      rcases List.mem_cons.1 hx with rfl | hx
      · exact ⟨a, rfl, le_max_left _ _⟩
      · obtain ⟨y, hy, hle⟩ := maxLimit_le (b :: l) hm x hx
        exact ⟨y, hy, hle.trans (le_max_right _ _)⟩
    · rw [hm] at h'
      cases h'

/-- A Kalman estimator that requires nothing on some gates requires nothing either if it may only
move them along directions that keep other parameters. -/
theorem nothing_required_tuned {eigh : Eigh} (heigh : EighSpec eigh) {nullspace : Nullspace}
    (hn : NullspaceSpec nullspace) {gates : List (Fin n)} (hgates : gates.Nodup) {e : Est n}
    (hP : e.filter.P.PosSemidef) (hpos : ∀ i m, e.maxCov i = .fin m → 0 < m)
    (h : e.require eigh gates = none) {r : Nat} (J : Matrix (Fin r) (Fin gates.length) ℝ) :
    e.requireTuned nullspace gates.get J = none := by
  classical
  have hinj : Function.Injective gates.get := List.nodup_iff_injective_get.1 hgates
  let A : Matrix (Fin gates.length) (Fin gates.length) ℝ := fun a b => e.cov (gates.get a) (gates.get b)
  have hAsymm : Aᵀ = A := by
    ext a b
    exact cov_symm hP _ _
  obtain ⟨hV, hAV⟩ := heigh _ A hAsymm
  have hlen := require_none.1 h
  unfold Est.requireTuned
  dsimp only
  rw [if_neg]
  rintro ⟨v, hv, hex⟩
  have hu := directions_unitNull hn hinj hv
  rcases hm : maxLimit (List.ofFn e.maxCov) with m | _
  · rw [hm] at hex
    have hle := maxLimit_le _ hm
    have hwle : ∀ j, (eigh _ A).1 j ≤ m := fun j => by
      have h1 := hlen j
      unfold Est.length at h1
      rw [Real.sqrt_le_one] at h1
      have hVj : ∑ a, (eigh _ A).2 a j ^ 2 = 1 := by simpa [sq] using hV j j
      by_contra hlt
      push Not at hlt
      have hge : ∀ a, ((eigh _ A).1 j / m) ^ 2 * (eigh _ A).2 a j ^ 2 ≤
          ((e.maxCov (gates.get a)).under ((eigh _ A).1 j * (eigh _ A).2 a j)) ^ 2 := fun a => by
        obtain ⟨y, hy, hym⟩ := hle (e.maxCov (gates.get a)) (by rw [List.mem_ofFn]; exact ⟨_, rfl⟩)
        have hy0 := hpos _ _ hy
        have hm0 : 0 < m := hy0.trans_le hym
        rw [hy]
        simp only [Limit.under]
        rw [← mul_pow, div_mul_eq_mul_div, div_pow, div_pow]
        exact div_le_div_of_nonneg_left (sq_nonneg _) (by positivity) (pow_le_pow_left₀ hy0.le hym 2)
      have hsum := Finset.sum_le_sum (s := Finset.univ) fun a _ => hge a
      rw [← Finset.mul_sum, hVj, mul_one] at hsum
      obtain ⟨y, hy, hym⟩ := hle (e.maxCov (gates.get j)) (by rw [List.mem_ofFn]; exact ⟨_, rfl⟩)
      have hm0 : 0 < m := (hpos _ _ hy).trans_le hym
      have h2 : 1 < (eigh _ A).1 j / m := (one_lt_div hm0).2 hlt
      have h3 : 1 < ((eigh _ A).1 j / m) ^ 2 := one_lt_pow₀ h2 (by norm_num)
      exact absurd (hsum.trans h1) (not_le.2 h3)
    have hsupp : ∀ i, i ∉ gates → v i = 0 := fun i hi => hu.support i fun a ha => hi (ha ▸ List.get_mem gates a)
    have hvar : variance e.cov v ≤ m := by
      rw [variance_gates hgates _ _ hsupp]
      refine variance_le_max hV hAV hwle ?_
      rw [← sum_gates hgates (fun i => v i ^ 2) (fun i hi => by rw [hsupp i hi]; ring)]
      exact hu.unit
    rw [variance_eq] at hvar
    exact absurd hex (not_lt.2 hvar)
  · rw [hm] at hex
    exact hex

/-- **C106**, one direction without any condition on set points, for Kalman estimators: if
`all_estimators_ready` is `True`, every Newton solver of the hierarchy makes a Newton step next,
whatever parameters are tuned already. -/
theorem ready_newton_step_kalman {eigh : Eigh} (heigh : EighSpec eigh) {nullspace : Nullspace}
    (hn : NullspaceSpec nullspace) (lstsq : Newton.Lstsq (Fin n))
    (ss : List (Option (Newton.State (Est n) (Fin n))))
    (hready : (allReady (kalmanI eigh nullspace) ss).2 = .ok true)
    (s : Newton.State (Est n) (Fin n)) (hs : some s ∈ ss) (hgates : s.gates.Nodup)
    (hne : s.gates ≠ []) (hlen : s.target.length = s.ests.length)
    (hP : ∀ e ∈ s.ests, e.filter.P.PosSemidef)
    (hpos : ∀ e ∈ s.ests, ∀ i m, e.maxCov i = .fin m → 0 < m) (tuned : List String) :
    (∀ p, Newton.newtonStep (kalmanI eigh nullspace) lstsq s = .ok p →
      Newton.suggest (kalmanI eigh nullspace) lstsq tuned s =
        (s, .ok fun i => if i ∈ s.gates then some (p i) else none)) ∧
    ∀ err, Newton.newtonStep (kalmanI eigh nullspace) lstsq s = .error err →
      Newton.suggest (kalmanI eigh nullspace) lstsq tuned s = (s, .error err) := by
  have hnone : ∀ e ∈ s.ests, e.require eigh s.gates = none := fun e he => by
    have h := (allReady_true (kalman_steady eigh nullspace) ss).1 hready s hs e he
    rcases hr : e.require eigh s.gates with _ | q
    · rfl
    · have h2 := (askEst_spec (kalman_steady eigh nullspace) s.gates e).2.1 (fun i => some (q i))
        (by simp [kalmanI, hr])
      rw [h2] at h
      simp only [Except.ok.injEq, decide_eq_true_eq] at h
      obtain ⟨g, gs, -⟩ := List.exists_cons_of_ne_nil hne
      exact absurd (h g) (by simp)
  have hjac : ∃ tj, Newton.tunedJacobian (kalmanI eigh nullspace) tuned s = .ok tj := by
    unfold Newton.tunedJacobian
    split
    · exact ⟨_, rfl⟩
    · rename_i ests hx
      unfold Newton.concat
      rw [List.filterMap_map]
      split
      · rename_i err herr
        split at herr
        · rename_i hnil
          rcases hl : List.filter (fun re => tuned.contains re.1.name) (s.target.zip s.ests) with _ | ⟨a, l⟩
          · exact absurd hl hx
          · rw [hl] at hnil
            simp [kalmanI] at hnil
        · cases herr
      · exact ⟨_, rfl⟩
  obtain ⟨tj, htj⟩ := hjac
  have hsil : ∀ re ∈ s.target.zip s.ests, re.1.desired ≠ none →
      Newton.Silent (kalmanI eigh nullspace) s.gates tj re.2 := fun re hre _ => by
    have he := (List.of_mem_zip hre).2
    left
    cases tj with
    | none => simp [kalmanI, hnone _ he]
    | some rows => simp [kalmanI, nothing_required_tuned heigh hn hgates (hP _ he) (hpos _ he) (hnone _ he)]
  have hsame : ({ s with ests := (s.target.zip s.ests).map (Newton.passed (kalmanI eigh nullspace) s.gates tj) } :
      Newton.State (Est n) (Fin n)) = s := by
    have : (s.target.zip s.ests).map (Newton.passed (kalmanI eigh nullspace) s.gates tj) = s.ests := by
      rw [show Newton.passed (kalmanI eigh nullspace) s.gates tj = Prod.snd from
        funext fun re => by unfold Newton.passed; split <;> rfl]
      rw [List.map_snd_zip]
      omega
    rw [this]
  obtain ⟨h1, h2, h3⟩ := Newton.newton_step_without_requests (kalmanI eigh nullspace) lstsq tuned s tj htj hlen hsil
  rw [hsame] at h1
  rw [h1] at h2 h3
  exact ⟨fun p hp => Prod.ext h1 (by
    rw [h2 p hp]
    refine congrArg _ (funext fun i => ?_)
    by_cases hi : i ∈ s.gates <;> simp [hi]), fun err he => Prod.ext h1 (h3 err he)⟩

/-- **C106**, the same for finite differences. -/
theorem ready_newton_step_fd (orth : Orth n) (lstsq : Newton.Lstsq (Fin n))
    (ss : List (Option (Newton.State (FD n) (Fin n))))
    (hready : (allReady (fdI orth) ss).2 = .ok true)
    (s : Newton.State (FD n) (Fin n)) (hs : some s ∈ ss)
    (hne : s.gates ≠ []) (hlen : s.target.length = s.ests.length) (tuned : List String) :
    (∀ p, Newton.newtonStep (fdI orth) lstsq s = .ok p →
      Newton.suggest (fdI orth) lstsq tuned s =
        (s, .ok fun i => if i ∈ s.gates then some (p i) else none)) ∧
    ∀ err, Newton.newtonStep (fdI orth) lstsq s = .error err →
      Newton.suggest (fdI orth) lstsq tuned s = (s, .error err) := by
  have hnone : ∀ e ∈ s.ests, ((fdI orth).require s.gates none e).2 = .ok none := fun e he => by
    have h := (allReady_true (fd_steady orth) ss).1 hready s hs e he
    rcases hr : ((fdI orth).require s.gates none e).2 with err | (_ | p)
    · rw [(askEst_spec (fd_steady orth) s.gates e).2.2 err hr] at h
      cases h
    · rfl
    · rw [(askEst_spec (fd_steady orth) s.gates e).2.1 p hr] at h
      simp only [Except.ok.injEq, decide_eq_true_eq] at h
      obtain ⟨i, hi⟩ := fd_request_not_empty orth s.gates hne e p hr
      exact absurd (h i) hi
  have hest : ∀ e ∈ s.ests, (∃ g, (fdI orth).estimate e = some g) ∧ ∀ tj,
      (fdI orth).require s.gates tj e = (e, .ok none) := fun e he => by
    have h := hnone e he
    obtain ⟨pos, eps, sym, est, stored, requested⟩ := e
    cases pos with
    | none => simp [fdI, FD.require, Except.map] at h
    | some c =>
      cases est with
      | none =>
        simp only [fdI, FD.require] at h
        split at h <;> simp [Except.map] at h
      | some g => exact ⟨⟨_, rfl⟩, fun tj => by simp [fdI, FD.require, Except.map]⟩
  have hjac : ∃ tj, Newton.tunedJacobian (fdI orth) tuned s = .ok tj := by
    unfold Newton.tunedJacobian
    split
    · exact ⟨_, rfl⟩
    · rename_i ests hx
      unfold Newton.concat
      rw [List.filterMap_map]
      split
      · rename_i err herr
        split at herr
        · rename_i hnil
          rcases hl : List.filter (fun re => tuned.contains re.1.name) (s.target.zip s.ests) with _ | ⟨a, l⟩
          · exact absurd hl hx
          · have ha : a ∈ s.target.zip s.ests := (List.mem_filter.1 (hl ▸ List.mem_cons_self)).1
            obtain ⟨⟨g, hg⟩, -⟩ := hest a.2 (List.of_mem_zip ha).2
            rw [hl] at hnil
            simp [hg] at hnil
        · cases herr
      · exact ⟨_, rfl⟩
  obtain ⟨tj, htj⟩ := hjac
  have hsil : ∀ re ∈ s.target.zip s.ests, re.1.desired ≠ none →
      Newton.Silent (fdI orth) s.gates tj re.2 := fun re hre _ =>
    .inl (by rw [(hest _ (List.of_mem_zip hre).2).2 tj])
  have hsame : ({ s with ests := (s.target.zip s.ests).map (Newton.passed (fdI orth) s.gates tj) } :
      Newton.State (FD n) (Fin n)) = s := by
    have : (s.target.zip s.ests).map (Newton.passed (fdI orth) s.gates tj) = s.ests := by
      rw [List.map_congr_left (g := Prod.snd) fun re hre => by
        unfold Newton.passed
        rw [(hest _ (List.of_mem_zip hre).2).2 tj]
        split <;> rfl]
      rw [List.map_snd_zip]
      omega
    rw [this]
  obtain ⟨h1, h2, h3⟩ := Newton.newton_step_without_requests (fdI orth) lstsq tuned s tj htj hlen hsil
  rw [hsame] at h1
  rw [h1] at h2 h3
  exact ⟨fun p hp => Prod.ext h1 (by
    rw [h2 p hp]
    refine congrArg _ (funext fun i => ?_)
    by_cases hi : i ∈ s.gates <;> simp [hi]), fun err he => Prod.ext h1 (h3 err he)⟩

/-- One parameter whose gradient is known: the hypotheses are met. -/
example (orth : Orth 1) (c g : Vec 1) :
    (allReady (fdI orth) [none, some { half c with
      target := [Newton.plainRow "a" none]
      ests := [⟨some c, fun _ => 1, false, some (fun i => some (g i), none), [], []⟩] }]).2 = .ok true := by
  simp [allReady, askAll, askEst, fdI, FD.require, FD.new, Except.map]

/-- A solver with a Kalman estimator that is certain of its gradient is ready. -/
example {eigh : Eigh} (heigh : EighSpec eigh) (nullspace : Nullspace) (x : Fin (1 * 2) → ℝ) :
    (allReady (kalmanI eigh nullspace) [none, some ⟨[Newton.plainRow "a" none],
      [Est.new (KG.new none (some x) (some 0) none none 1) 0 (some 0) (fun _ => .fin 2) 1],
      [0, 1], fun _ => some 0, [("a", some 1)]⟩]).2 = .ok true := by
  rw [allReady_true (kalman_steady eigh nullspace)]
  intro s hs e he
  simp only [List.mem_cons, reduceCtorEq, Option.some.injEq, List.not_mem_nil, or_false, false_or] at hs
  subst hs
  rw [List.mem_singleton] at he
  refine (askEst_spec (kalman_steady eigh nullspace) _ _).1 ?_
  have h := ((kalman_request heigh (gates := [0, 1]) (by decide) (KG.new none (some x) (some 0) none none 1 : KG 1 2)
    PosSemidef.zero 0 (some 0) 1 2 (by norm_num)).1).2 (fun v _ => by
      simp [variance, Est.cov, Est.new, KG.new])
  rw [he]
  simp [kalmanI, h]

end Qtune.Ready
