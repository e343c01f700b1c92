import Verif.Newton.PropsStep

/-! # Properties of the Newton solver: what the constructor checks, and what stays true after it -/

namespace Qtune.Newton

open Qtune.Tuner (Volt)

variable {E ι : Type} [DecidableEq ι]

/-- What a set up needs to be usable: one estimator for each parameter, at least as many gates as
parameters, and initial values, if there are any, for all parameters. -/
structure Consistent (target : Target) (ests : List E) (gates : List ι) (values : Option Series) : Prop where
  estimators : ests.length = target.length
  gates : target.length ≤ gates.length
  values : ∀ vs, values = some vs → ∀ l ∈ target.names, l ∈ vs.index

/-- **C110**, the constructor.  It succeeds exactly for consistent set ups and raises `AssertionError`
otherwise; the new solver has the given target, estimators, gates and position, and the given initial
values of the parameters, in the order of the target (NaN without initial values). -/
theorem constructor_checks (target : Target) (ests : List E) (gates : List ι) (pos : ι → Val)
    (values : Option Series) :
    (Consistent target ests gates values → ∃ s, new target ests gates pos values = .ok s ∧
      s.target = target ∧ s.ests = ests ∧ s.gates = gates ∧ s.pos = pos ∧
      s.values.index = target.names ∧
      ∀ l ∈ target.names, s.values.val l = match values with
        | some vs => vs.val l
        | none => none) ∧
    (¬ Consistent target ests gates values → new target ests gates pos values = .error .assertionError) := by
  have hall : ∀ vs : Series, target.names.all (fun l => (vs.lookup l).isSome) = true ↔
      ∀ l ∈ target.names, l ∈ vs.index := by
    intro vs
    rw [List.all_eq_true]
    refine forall₂_congr fun l _ => ?_
    rw [List.lookup_isSome_iff]
    constructor
    · rintro ⟨e, he, hl⟩
      exact List.mem_map.2 ⟨e, he, (eq_of_beq hl).symm⟩
    · intro hv
      obtain ⟨e, he, rfl⟩ := List.mem_map.1 hv
      exact ⟨e, he, beq_self_eq_true _⟩
  constructor
  · intro h
    unfold new
    rw [if_neg (by simpa using h.estimators.symm)]
    rcases values with _ | vs
    · dsimp only
      rw [if_neg (by have := h.gates; omega)]
      refine ⟨_, rfl, rfl, rfl, rfl, rfl, by simp [Series.index, Function.comp_def], ?_⟩
      intro l hl
      exact val_map _ (fun _ => none) _ hl
    · dsimp only
      rw [if_pos ((hall vs).2 (h.values vs rfl)), if_neg (by have := h.gates; omega)]
      refine ⟨_, rfl, rfl, rfl, rfl, rfl, by simp [Series.index, Function.comp_def], ?_⟩
      intro l hl
      exact val_map _ vs.val _ hl
  · intro h
    unfold new
    by_cases h1 : target.length ≠ ests.length
    · rw [if_pos h1]
    · rw [if_neg h1]
      push Not at h1
      rcases values with _ | vs
      · dsimp only
        rw [if_pos]
        by_contra h2
        exact h ⟨h1.symm, by omega, by simp⟩
      · dsimp only
        by_cases h2 : target.names.all (fun l => (vs.lookup l).isSome) = true
        · rw [if_pos h2, if_pos]
          by_contra h3
          refine h ⟨h1.symm, by omega, ?_⟩
          intro vs' hvs
          cases hvs
          exact (hall _).1 h2
        · rw [if_neg h2]

theorem feed_length (I : EstI E ι) (T : Target) (v : Volt ι) :
    ∀ (es : List E) (values : Series) (variances : List Val),
      (feed I T v es values variances).1.length = es.length := by
  intro es
  induction es with
  | nil => intro values variances; unfold feed; rfl
  | cons e es ih =>
    intro values variances
    match values, variances with
    | [], _ => rfl
    | (l, x) :: values, [] => rfl
    | (l, x) :: values, y :: variances =>
      unfold feed
      split
      · rfl
      · split_ifs
        · simpa using ih values variances
        · split
          · rfl
          · simpa using ih values variances

/-- What the constructor has checked stays true. -/
structure Sound (target : Target) (gates : List ι) (s : State E ι) : Prop where
  sameTarget : s.target = target
  sameGates : s.gates = gates
  estimators : s.ests.length = target.length
  enough : target.length ≤ s.gates.length
  index : s.values.index = target.names

theorem Sound.call {target : Target} {gates : List ι} {s : State E ι} (h : Sound target gates s)
    (I : EstI E ι) (lstsq : Lstsq ι) (c : Call ι) : Sound target gates (call I lstsq s c) := by
  cases c with
  | setPosition v => exact ⟨h.sameTarget, h.sameGates, h.estimators, h.enough, h.index⟩
  | suggest tuned =>
    change Sound target gates (suggest I lstsq tuned s).1
    unfold suggest
    split
    · exact h
    · rename_i tj _
      have hl : (ask I s.gates tj (s.target.zip s.ests)).1.length = target.length := by
        rw [ask_length, List.length_zip, h.sameTarget, h.estimators, Nat.min_self]
      split
      all_goals rename_i heq
      all_goals rw [heq] at hl
      · exact ⟨h.sameTarget, h.sameGates, hl, h.enough, h.index⟩
      · exact ⟨h.sameTarget, h.sameGates, hl, h.enough, h.index⟩
      · split
        · exact ⟨h.sameTarget, h.sameGates, hl, h.enough, h.index⟩
        · exact ⟨h.sameTarget, h.sameGates, hl, h.enough, h.index⟩
  | update v values variances =>
    change Sound target gates (update I v values variances s).1
    unfold update
    split
    · exact h
    · rename_i vals hsel
      have hvals := Series.select_ok hsel
      have hi : Series.index vals = target.names := by
        rw [hvals, Series.index_map_mk, h.index]
      have hl := feed_length I s.target v s.ests vals (variances.map Prod.snd)
      rw [h.estimators] at hl
      split
      · rename_i heq
        rw [heq] at hl
        exact ⟨h.sameTarget, h.sameGates, hl, h.enough, h.index⟩
      · rename_i heq
        rw [heq] at hl
        exact ⟨h.sameTarget, h.sameGates, hl, h.enough, hi⟩

/-- **C110**, the life of a solver.  A solver that could be constructed is used in any way (updates,
suggestions, new positions, whether they raise or not).  It still has the target and the gates, an
estimator for each parameter and a value for each parameter in the order of the target. -/
theorem sound_forever {target : Target} {ests : List E} {gates : List ι} {pos : ι → Val}
    {values : Option Series} {s : State E ι} (hnew : new target ests gates pos values = .ok s)
    (I : EstI E ι) (lstsq : Lstsq ι) (cs : List (Call ι)) :
    let s' := cs.foldl (Newton.call I lstsq) s
    s'.target = target ∧ s'.gates = gates ∧ s'.ests.length = target.length ∧
      target.length ≤ s'.gates.length ∧ s'.values.index = target.names := by
  have hcons : Consistent target ests gates values := by
    by_contra h
    rw [(constructor_checks target ests gates pos values).2 h] at hnew
    cases hnew
  obtain ⟨s₀, h0, h1, h2, h3, h4, h5, -⟩ := (constructor_checks target ests gates pos values).1 hcons
  rw [hnew] at h0
  cases h0
  have hs : Sound target gates s := ⟨h1, h3, by rw [h2]; exact hcons.estimators, by
    rw [h3]; exact hcons.gates, h5⟩
  have : ∀ (cs : List (Call ι)) (s : State E ι), Sound target gates s →
      Sound target gates (cs.foldl (Newton.call I lstsq) s) := by
    intro cs
    induction cs with
    | nil => intro s h; exact h
    | cons c cs ih => intro s h; exact ih _ (h.call I lstsq c)
  have := this cs s hs
  exact ⟨this.sameTarget, this.sameGates, this.estimators, this.enough, this.index⟩

/-- **C28** for the whole life of a solver: constructed, used in any way, then told the values `c` at the
voltages `p`.  If no estimator of a parameter requests a measurement and the gradients `G` are linearly
independent, the next suggestion is the shortest step from `p` on the gates of the solver after which all
parameters have, to first order, their set points. -/
theorem newton_step_in_any_life {m : Nat} {I : EstI E ι} {lstsq : Lstsq ι} (hl : LstsqSpec lstsq)
    {target : Target} {ests : List E} {gates : List ι} {pos : ι → Val} {initial : Option Series}
    {s₀ s' : State E ι} (hnew : new target ests gates pos initial = .ok s₀) (cs : List (Call ι))
    {p : ι → ℝ} {values variances : Series}
    (hup : update I (fun i => some (p i)) values variances (cs.foldl (call I lstsq) s₀) = (s', .ok ()))
    {G : Fin m → ι → ℝ} (hsize : target.length = m) (hm : m ≠ 0)
    (hquiet : ∀ re ∈ target.zip s'.ests, re.1.desired ≠ none →
      ∀ tj, I.require gates tj re.2 = (re.2, .ok none))
    (hgrad : s'.ests.map I.estimate = List.ofFn fun k => some fun i => some (G k i))
    (hrank : FullRowRank gates G) (tuned : List String) (c d : Fin m → ℝ)
    (hd : ∀ (k : Fin m) (r : Row), target[k]? = some r →
      r.desired = some (d k) ∧ values.val r.name = some (c k)) :
    ∃ x : ι → ℝ,
      Newton.suggest I lstsq tuned s' =
        (s', .ok fun i => if i ∈ gates then some (some (p i + x i)) else none) ∧
      (∀ k, c k + change gates (G k) x = d k) ∧
      ∀ y : ι → ℝ, (∀ k, c k + change gates (G k) y = d k) → lengthSq gates x ≤ lengthSq gates y := by
  obtain ⟨ht, hg, -, -, hi⟩ := sound_forever hnew I lstsq cs
  generalize cs.foldl (call I lstsq) s₀ = s at hup ht hg hi
  subst ht hg
  exact newton_step_after_update hl hi hup hsize hm hquiet hgrad hrank tuned c d hd

/-- A solver for one parameter and two gates. -/
example : ∃ s, new sample.target sample.ests sample.gates sample.pos (some [("b", some 7), ("a", some 1)]) =
      .ok s ∧ s.values = [("a", some 1)] ∧
    Consistent sample.target sample.ests sample.gates (some [("b", some 7), ("a", some 1)]) ∧
    ¬ Consistent (ι := Fin 2) sample.target sample.ests [] none := by
  refine ⟨_, rfl, rfl, ⟨rfl, by decide, ?_⟩, fun h => ?_⟩
  · intro vs hvs l hl
    cases hvs
    have : l = "a" := by simpa [sample, Target.names, plainRow] using hl
    subst this
    simp [Series.index]
  · have := h.gates
    simp [sample] at this

end Qtune.Newton
