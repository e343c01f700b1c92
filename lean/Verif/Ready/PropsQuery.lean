import Verif.Ready.Props

/-! # `all_estimators_ready` does not change what the solvers suggest -/

namespace Qtune.Ready

open Qtune.Tuner Qtune.Gradient Qtune.EndToEnd

variable {E ι : Type} {n : Nat}

/-- Related estimators cannot be told apart by the solver; asking one leads to a related one. -/
structure Hidden (I : Newton.EstI E ι) (R : E → E → Prop) : Prop where
  refl : ∀ e, R e e
  trans : ∀ {a b c}, R a b → R b c → R a c
  estimate : ∀ {a b}, R a b → I.estimate a = I.estimate b
  require : ∀ {a b} gates tj, R a b → (I.require gates tj a).2 = (I.require gates tj b).2 ∧
    R (I.require gates tj a).1 (I.require gates tj b).1
  update : ∀ {a b} v x y, R a b → (I.update v x y a).2 = (I.update v x y b).2 ∧
    R (I.update v x y a).1 (I.update v x y b).1
  asked : ∀ gates tj e, R e (I.require gates tj e).1

/-- Finite difference estimators that differ in the requested measurements at most. -/
def SameButRequested (a b : FD n) : Prop :=
  a.pos = b.pos ∧ a.eps = b.eps ∧ a.symmetric = b.symmetric ∧ a.estimate = b.estimate ∧ a.stored = b.stored

theorem fd_hidden (orth : Orth n) : Hidden (fdI orth) SameButRequested where
  refl := fun _ => ⟨rfl, rfl, rfl, rfl, rfl⟩
  trans := by
    rintro a b c ⟨h1, h2, h3, h4, h5⟩ ⟨g1, g2, g3, g4, g5⟩
    exact ⟨h1.trans g1, h2.trans g2, h3.trans g3, h4.trans g4, h5.trans g5⟩
  estimate := by
    rintro a b ⟨-, -, -, h, -⟩
    simp only [fdI, h]
  require := by
    rintro ⟨pos, eps, sym, est, stored, req⟩ ⟨pos', eps', sym', est', stored', req'⟩ gates tj
      ⟨h1, h2, h3, h4, h5⟩
    dsimp only at h1 h2 h3 h4 h5
    subst h1 h2 h3 h4 h5
    simp only [fdI, FD.require]
    cases pos with
    | none => exact ⟨rfl, rfl, rfl, rfl, rfl, rfl⟩
    | some c =>
      cases est with
      | some _ => exact ⟨rfl, rfl, rfl, rfl, rfl, rfl⟩
      | none =>
        dsimp only
        cases nextPoint orth gates sym (stored.map fun m => restrict gates m.1) with
        | error err => exact ⟨rfl, rfl, rfl, rfl, rfl, rfl⟩
        | ok next => exact ⟨rfl, rfl, rfl, rfl, rfl, rfl⟩
  update := by
    rintro ⟨pos, eps, sym, est, stored, req⟩ ⟨pos', eps', sym', est', stored', req'⟩ v x y
      ⟨h1, h2, h3, h4, h5⟩
    dsimp only at h1 h2 h3 h4 h5
    subst h1 h2 h3 h4 h5
    simp only [fdI, FD.update]
    cases pos with
    | none => exact ⟨rfl, rfl, rfl, rfl, rfl, rfl⟩
    | some c =>
      cases est with
      | some _ => exact ⟨rfl, rfl, rfl, rfl, rfl, rfl⟩
      | none =>
        dsimp only
        split
        · split
          · exact ⟨rfl, rfl, rfl, rfl, rfl, rfl⟩
          · exact ⟨rfl, rfl, rfl, rfl, rfl, rfl⟩
        · split
          · split
            · exact ⟨rfl, rfl, rfl, rfl, rfl, rfl⟩
            · exact ⟨rfl, rfl, rfl, rfl, rfl, rfl⟩
          · exact ⟨rfl, rfl, rfl, rfl, rfl, rfl⟩
  asked := by
    rintro gates tj ⟨pos, eps, sym, est, stored, req⟩
    simp only [fdI, FD.require]
    cases pos with
    | none => exact ⟨rfl, rfl, rfl, rfl, rfl⟩
    | some c =>
      cases est with
      | some _ => exact ⟨rfl, rfl, rfl, rfl, rfl⟩
      | none =>
        dsimp only
        cases nextPoint orth gates sym (stored.map fun m => restrict gates m.1) with
        | error err => exact ⟨rfl, rfl, rfl, rfl, rfl⟩
        | ok next => exact ⟨rfl, rfl, rfl, rfl, rfl⟩

theorem kalman_hidden (eigh : Kalman.Eigh) (nullspace : Kalman.Nullspace) :
    Hidden (kalmanI (n := n) eigh nullspace) Eq where
  refl := fun _ => rfl
  trans := fun h h' => h.trans h'
  estimate := fun h => by rw [h]
  require := fun _ _ h => by rw [h]; exact ⟨rfl, rfl⟩
  update := fun _ _ _ h => by rw [h]; exact ⟨rfl, rfl⟩
  asked := fun _ _ _ => rfl

/-- Solvers whose estimators are related, equal in everything else. -/
structure Alike (R : E → E → Prop) (s s' : Newton.State E ι) : Prop where
  target : s.target = s'.target
  gates : s.gates = s'.gates
  pos : s.pos = s'.pos
  values : s.values = s'.values
  ests : List.Forall₂ R s.ests s'.ests

section
variable {I : Newton.EstI E ι} {R : E → E → Prop}

theorem map_estimate (h : Hidden I R) {es es' : List E} (he : List.Forall₂ R es es') :
    es.map I.estimate = es'.map I.estimate := by
  induction he with
  | nil => rfl
  | cons h1 _ ih => rw [List.map_cons, List.map_cons, h.estimate h1, ih]

theorem tunedJacobian_alike (h : Hidden I R) (tuned : List String) {s s' : Newton.State E ι}
    (hs : Alike R s s') : Newton.tunedJacobian I tuned s = Newton.tunedJacobian I tuned s' := by
  have key : ∀ (T : List Row) {es es' : List E}, List.Forall₂ R es es' →
      ((T.zip es).filter fun re => tuned.contains re.1.name).map (fun re => I.estimate re.2) =
      ((T.zip es').filter fun re => tuned.contains re.1.name).map fun re => I.estimate re.2 := by
    intro T es es' he
    induction he generalizing T with
    | nil => rfl
    | cons h1 _ ih =>
      cases T with
      | nil => rfl
      | cons r T =>
        simp only [List.zip_cons_cons, List.filter_cons]
        split
        · simp only [List.map_cons, h.estimate h1, ih T]
        · exact ih T
  have hk := key s.target hs.ests
  unfold Newton.tunedJacobian
  rw [← hs.target]
  revert hk
  cases (s.target.zip s.ests).filter fun re => tuned.contains re.1.name with
  | nil =>
    cases (s.target.zip s'.ests).filter fun re => tuned.contains re.1.name with
    | nil => intro _; rfl
    | cons a l => intro hk; cases hk
  | cons a l =>
    cases (s.target.zip s'.ests).filter fun re => tuned.contains re.1.name with
    | nil => intro hk; cases hk
    | cons b l' => intro hk; dsimp only; rw [hk]

theorem ask_alike (h : Hidden I R) (gates : List ι) (tj : Option (List (ι → Val))) :
    ∀ (T : List Row) {es es' : List E}, List.Forall₂ R es es' →
      (Newton.ask I gates tj (T.zip es)).2 = (Newton.ask I gates tj (T.zip es')).2 ∧
      List.Forall₂ R (Newton.ask I gates tj (T.zip es)).1 (Newton.ask I gates tj (T.zip es')).1 := by
  intro T es es' he
  induction he generalizing T with
  | nil => cases T <;> exact ⟨rfl, .nil⟩
  | @cons a b es es' h1 hrest ih =>
    cases T with
    | nil => exact ⟨rfl, .nil⟩
    | cons r T =>
      obtain ⟨ih1, ih2⟩ := ih T
      have htail : List.Forall₂ R ((T.zip es).map Prod.snd) ((T.zip es').map Prod.snd) := by
        clear ih ih1 ih2
        induction hrest generalizing T with
        | nil => cases T <;> exact .nil
        | cons h2 _ ih =>
          cases T with
          | nil => exact .nil
          | cons r' T => exact .cons h2 (ih T)
      obtain ⟨hq1, hq2⟩ := h.require gates tj h1
      simp only [List.zip_cons_cons]
      unfold Newton.ask
      split
      · exact ⟨ih1, .cons h1 ih2⟩
      · rcases hra : I.require gates tj a with ⟨a', ra⟩
        rcases hrb : I.require gates tj b with ⟨b', rb⟩
        rw [hra, hrb] at hq1 hq2
        dsimp only at hq1 hq2
        subst hq1
        rcases ra with err | (_ | p)
        · exact ⟨rfl, .cons hq2 htail⟩
        · exact ⟨ih1, .cons hq2 ih2⟩
        · dsimp only
          split
          · exact ⟨rfl, .cons hq2 htail⟩
          · exact ⟨ih1, .cons hq2 ih2⟩

theorem newtonStep_alike (h : Hidden I R) (lstsq : Newton.Lstsq ι) {s s' : Newton.State E ι}
    (hs : Alike R s s') : Newton.newtonStep I lstsq s = Newton.newtonStep I lstsq s' := by
  unfold Newton.newtonStep
  rw [hs.target, hs.values, hs.gates, hs.pos, map_estimate h hs.ests]

theorem suggest_alike (h : Hidden I R) (lstsq : Newton.Lstsq ι) (tuned : List String)
    {s s' : Newton.State E ι} (hs : Alike R s s') :
    (Newton.suggest I lstsq tuned s).2 = (Newton.suggest I lstsq tuned s').2 ∧
    Alike R (Newton.suggest I lstsq tuned s).1 (Newton.suggest I lstsq tuned s').1 := by
  have htj := tunedJacobian_alike h tuned hs
  obtain ⟨T, es₀, g, p, vals⟩ := s
  obtain ⟨T', es₀', g', p', vals'⟩ := s'
  obtain ⟨e1, e2, e3, e4, he⟩ := hs
  dsimp only at e1 e2 e3 e4 he
  subst e1 e2 e3 e4
  unfold Newton.suggest
  rw [← htj]
  rcases Newton.tunedJacobian I tuned ⟨T, es₀, g, p, vals⟩ with err | tj
  · exact ⟨rfl, rfl, rfl, rfl, rfl, he⟩
  · dsimp only
    obtain ⟨h1, h2⟩ := ask_alike h g tj T he
    rcases ha : Newton.ask I g tj (T.zip es₀) with ⟨es, r⟩
    rcases hb : Newton.ask I g tj (T.zip es₀') with ⟨es', r'⟩
    rw [ha, hb] at h1 h2
    dsimp only at h1 h2
    subst h1
    have hal : Alike R (⟨T, es, g, p, vals⟩ : Newton.State E ι) ⟨T, es', g, p, vals⟩ :=
      ⟨rfl, rfl, rfl, rfl, h2⟩
    rcases r with err | (_ | q)
    · exact ⟨rfl, hal⟩
    · dsimp only
      have hst := newtonStep_alike h lstsq hal
      rw [← hst]
      rcases Newton.newtonStep I lstsq ⟨T, es, g, p, vals⟩ with err | q
      · exact ⟨rfl, hal⟩
      · exact ⟨rfl, hal⟩
    · exact ⟨rfl, hal⟩

theorem feed_alike (h : Hidden I R) (T : Target) (v : Volt ι) {es es' : List E}
    (he : List.Forall₂ R es es') : ∀ (values : Series) (variances : List Val),
      (Newton.feed I T v es values variances).2 = (Newton.feed I T v es' values variances).2 ∧
      List.Forall₂ R (Newton.feed I T v es values variances).1
        (Newton.feed I T v es' values variances).1 := by
  induction he with
  | nil =>
    intro values variances
    unfold Newton.feed
    exact ⟨rfl, .nil⟩
  | @cons a b es es' h1 hrest ih =>
    intro values variances
    match values, variances with
    | [], _ => unfold Newton.feed; exact ⟨rfl, .cons h1 hrest⟩
    | _ :: _, [] => unfold Newton.feed; exact ⟨rfl, .cons h1 hrest⟩
    | (l, x) :: values, y :: variances =>
      obtain ⟨ih1, ih2⟩ := ih values variances
      unfold Newton.feed
      cases T.row? l with
      | none => exact ⟨rfl, .cons h1 hrest⟩
      | some r =>
        dsimp only
        split
        · exact ⟨ih1, .cons h1 ih2⟩
        · obtain ⟨hu1, hu2⟩ := h.update v x y h1
          rcases ha : I.update v x y a with ⟨a', ra⟩
          rcases hb : I.update v x y b with ⟨b', rb⟩
          rw [ha, hb] at hu1 hu2
          dsimp only at hu1 hu2
          subst hu1
          rcases ra with err | _
          · exact ⟨rfl, .cons hu2 hrest⟩
          · exact ⟨ih1, .cons hu2 ih2⟩

theorem update_alike (h : Hidden I R) (v : Volt ι) (values variances : Series)
    {s s' : Newton.State E ι} (hs : Alike R s s') :
    (Newton.update I v values variances s).2 = (Newton.update I v values variances s').2 ∧
    Alike R (Newton.update I v values variances s).1 (Newton.update I v values variances s').1 := by
  unfold Newton.update
  rw [← hs.values, ← hs.target]
  rcases values.select s.values.index with err | vals
  · exact ⟨rfl, hs⟩
  · dsimp only
    obtain ⟨h1, h2⟩ := feed_alike h s.target v hs.ests vals (variances.map Prod.snd)
    rcases ha : Newton.feed I s.target v s.ests vals (variances.map Prod.snd) with ⟨es, r⟩
    rcases hb : Newton.feed I s.target v s'.ests vals (variances.map Prod.snd) with ⟨es', r'⟩
    rw [ha, hb] at h1 h2
    dsimp only at h1 h2
    subst h1
    rcases r with err | _
    · exact ⟨rfl, rfl, hs.gates, hs.pos, rfl, h2⟩
    · exact ⟨rfl, rfl, hs.gates, rfl, rfl, h2⟩

theorem askEst_hidden (h : Hidden I R) (gates : List ι) (e : E) : R e (askEst I gates e).1 := by
  have h1 := h.asked gates none e
  unfold askEst
  rcases ha : I.require gates none e with ⟨e', r⟩
  rw [ha] at h1
  rcases r with err | (_ | p)
  · exact h1
  · exact h1
  · dsimp only
    have h2 := h.asked gates none e'
    rcases hb : I.require gates none e' with ⟨e'', r'⟩
    rw [hb] at h2
    rcases r' with err | (_ | q)
    · exact h.trans h1 h2
    · exact h.trans h1 h2
    · exact h.trans h1 h2

theorem forall₂_refl (h : Hidden I R) : ∀ es : List E, List.Forall₂ R es es
  | [] => .nil
  | e :: es => .cons (h.refl e) (forall₂_refl h es)

theorem askAll_hidden (h : Hidden I R) (gates : List ι) (es : List E) :
    List.Forall₂ R es (askAll I gates es).1 := by
  induction es with
  | nil => exact .nil
  | cons e es ih =>
    have h1 := askEst_hidden h gates e
    unfold askAll
    rcases ha : askEst I gates e with ⟨e', err | b⟩
    · rw [ha] at h1
      exact .cons h1 (forall₂_refl h es)
    · rw [ha] at h1
      cases b
      · exact .cons h1 (forall₂_refl h es)
      · exact .cons h1 ih

theorem query_hidden (h : Hidden I R) (s : Newton.State E ι) :
    ∃ s', (allReady I [some s]).1 = [some s'] ∧ Alike R s s' := by
  have h1 := askAll_hidden h s.gates s.ests
  unfold allReady
  rcases ha : askAll I s.gates s.ests with ⟨es, err | b⟩
  · rw [ha] at h1
    exact ⟨_, rfl, rfl, rfl, rfl, rfl, h1⟩
  · rw [ha] at h1
    cases b
    · exact ⟨_, rfl, rfl, rfl, rfl, rfl, h1⟩
    · exact ⟨_, rfl, rfl, rfl, rfl, rfl, h1⟩

theorem Alike.trans (h : Hidden I R) {a b c : Newton.State E ι} (h1 : Alike R a b) (h2 : Alike R b c) :
    Alike R a c := by
  refine ⟨h1.target.trans h2.target, h1.gates.trans h2.gates, h1.pos.trans h2.pos,
    h1.values.trans h2.values, ?_⟩
  have : ∀ {x y z : List E}, List.Forall₂ R x y → List.Forall₂ R y z → List.Forall₂ R x z := by
    intro x y z hxy
    induction hxy generalizing z with
    | nil => intro hyz; cases hyz; exact .nil
    | cons p _ ih =>
      intro hyz
      cases hyz with
      | cons q hyz => exact .cons (h.trans p q) (ih hyz)
  exact this h1.ests h2.ests

theorem run_alike (h : Hidden I R) (lstsq : Newton.Lstsq ι) (cs : List (Call ι))
    {s s' : Newton.State E ι} (hs : Alike R s s') :
    (run I lstsq (withoutQueries cs) s).2 = (run I lstsq cs s').2 ∧
    Alike R (run I lstsq (withoutQueries cs) s).1 (run I lstsq cs s').1 := by
  induction cs generalizing s s' with
  | nil => exact ⟨rfl, hs⟩
  | cons c cs ih =>
    cases c with
    | update v x y =>
      obtain ⟨h1, h2⟩ := update_alike h v x y hs
      obtain ⟨i1, i2⟩ := ih h2
      unfold withoutQueries
      simp only [run]
      rw [h1, i1]
      exact ⟨rfl, i2⟩
    | suggest tuned =>
      obtain ⟨h1, h2⟩ := suggest_alike h lstsq tuned hs
      obtain ⟨i1, i2⟩ := ih h2
      unfold withoutQueries
      simp only [run]
      rw [h1, i1]
      exact ⟨rfl, i2⟩
    | query =>
      obtain ⟨s'', hq, hal⟩ := query_hidden h s'
      unfold withoutQueries
      simp only [run]
      rw [hq]
      exact ih (Alike.trans h hs hal)

end

/-- **C107**, finite differences.  However often `all_estimators_ready` is read in between, all suggestions
and errors of the solver are the same as without, and the estimators end with the same positions, stored
measurements, gradients and covariances; only the requested measurements may differ.
Missing: the requested measurements, see `query_effect_refuted`. -/
theorem query_effect_partial (orth : Orth n) (lstsq : Newton.Lstsq (Fin n)) (cs : List (Call (Fin n)))
    (s : Newton.State (FD n) (Fin n)) :
    (run (fdI orth) lstsq cs s).2 = (run (fdI orth) lstsq (withoutQueries cs) s).2 ∧
    List.Forall₂ SameButRequested (run (fdI orth) lstsq (withoutQueries cs) s).1.ests
      (run (fdI orth) lstsq cs s).1.ests := by
  have h := fd_hidden orth
  obtain ⟨h1, h2⟩ := run_alike h lstsq cs ⟨rfl, rfl, rfl, rfl, forall₂_refl h s.ests⟩
  exact ⟨h1.symm, h2.ests⟩

/-- **C107**, Kalman estimators.  Results and final state are the same as without the queries. -/
theorem query_no_effect_kalman (eigh : Kalman.Eigh) (nullspace : Kalman.Nullspace)
    (lstsq : Newton.Lstsq (Fin n)) (cs : List (Call (Fin n)))
    (s : Newton.State (Kalman.Est n) (Fin n)) :
    run (kalmanI eigh nullspace) lstsq cs s =
      run (kalmanI eigh nullspace) lstsq (withoutQueries cs) s := by
  have h := kalman_hidden (n := n) eigh nullspace
  obtain ⟨h1, h2⟩ := run_alike h lstsq cs ⟨rfl, rfl, rfl, rfl, forall₂_refl h s.ests⟩
  refine Prod.ext ?_ h1.symm
  have he := List.forall₂_eq_eq_eq ▸ h2.ests
  have ht := h2.target
  have hg := h2.gates
  have hp := h2.pos
  have hv := h2.values
  rcases hx : (run (kalmanI eigh nullspace) lstsq cs s).1 with ⟨a, b, c, d, e⟩
  rcases hy : (run (kalmanI eigh nullspace) lstsq (withoutQueries cs) s).1 with ⟨a', b', c', d', e'⟩
  rw [hx, hy] at he ht hg hp hv
  dsimp only at he ht hg hp hv
  rw [he, ht, hg, hp, hv]

/-- **C107** is false for what is saved: reading `all_estimators_ready` twice while a gradient is being
estimated leaves four requested measurements behind, none of which is ever made. -/
theorem query_effect_refuted (orth : Orth 1) (lstsq : Newton.Lstsq (Fin 1)) :
    (((run (fdI orth) lstsq [.query, .query] (half fun _ => 3)).1.ests.map FD.requested).map List.length) =
      [0, 4] ∧ (half fun _ => 3).ests.map FD.requested = [[], []] := by
  constructor
  · simp [run, allReady, half, askAll, askEst, fdI, FD.require, FD.new, nextPoint, request, Except.map]
  · simp [half, FD.new]

end Qtune.Ready
