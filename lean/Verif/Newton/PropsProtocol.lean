import Verif.Newton.Props
import Verif.Newton.Exists

/-! # Properties of the Newton solver: measurement requests and updates -/

namespace Qtune.Newton

open Qtune.Tuner (Volt)

variable {E ι : Type}

/-- The estimator makes no request. -/
def Silent (I : EstI E ι) (gates : List ι) (tj : Option (List (ι → Val))) (e : E) : Prop :=
  (I.require gates tj e).2 = .ok none ∨
    ∃ p, (I.require gates tj e).2 = .ok (some p) ∧ ∀ i, p i = none

/-- The state of an estimator after the loop has passed it: asked only if there is a set point. -/
def passed (I : EstI E ι) (gates : List ι) (tj : Option (List (ι → Val))) (re : Row × E) : E :=
  if re.1.desired = none then re.2 else (I.require gates tj re.2).1

theorem ask_append (I : EstI E ι) (gates : List ι) (tj : Option (List (ι → Val)))
    (A B : List (Row × E)) (hA : ∀ re ∈ A, re.1.desired ≠ none → Silent I gates tj re.2) :
    ask I gates tj (A ++ B) =
      (A.map (passed I gates tj) ++ (ask I gates tj B).1, (ask I gates tj B).2) := by
  induction A with
  | nil => rfl
  | cons re A ih =>
    obtain ⟨r, e⟩ := re
    have ih := ih fun re hre => hA re (List.mem_cons_of_mem _ hre)
    rw [List.cons_append]
    conv_lhs => unfold ask
    by_cases hd : r.desired = none
    · rw [if_pos (by simp [hd]), ih]
      simp [passed, hd]
    · rw [if_neg (by simpa using hd)]
      have hs := hA (r, e) List.mem_cons_self hd
      have hp : passed I gates tj (r, e) = (I.require gates tj e).1 := by simp [passed, hd]
      rcases hreq : I.require gates tj e with ⟨e', res⟩
      rw [hreq] at hp
      rcases hs with h | ⟨p, h, hempty⟩
      · simp only [hreq] at h
        subst h
        simp only [ih, List.map_cons, List.cons_append, hp]
      · simp only [hreq] at h
        subst h
        simp only
        rw [if_neg (by simpa using hempty)]
        simp only [ih, List.map_cons, List.cons_append, hp]

/-- The tuned Jacobian that is passed to the estimators: nothing if no parameter of the solver is
tuned, otherwise the gradients of the tuned parameters in the order of the target. -/
theorem tuned_jacobian_rows (I : EstI E ι) (tuned : List String) (s : State E ι) :
    ((∀ r ∈ s.target, r.name ∉ tuned) → tunedJacobian I tuned s = .ok none) ∧
    ∀ rows, tunedJacobian I tuned s = .ok (some rows) →
      rows = ((s.target.zip s.ests).filter fun re => decide (re.1.name ∈ tuned)).filterMap
        fun re => I.estimate re.2 := by
  have hc : (fun re : Row × E => tuned.contains re.1.name) = fun re => decide (re.1.name ∈ tuned) := by
    funext re
    simp
  constructor
  · intro h
    have hnil : (s.target.zip s.ests).filter (fun re => tuned.contains re.1.name) = [] := by
      rw [List.filter_eq_nil_iff]
      intro re hre
      have := h re.1 (List.of_mem_zip hre).1
      simpa using this
    unfold tunedJacobian
    rw [hnil]
  · intro rows h
    unfold tunedJacobian at h
    rw [hc] at h
    split at h
    · cases h
    · rename_i ests hne
      unfold concat at h
      rw [List.filterMap_map] at h
      split at h
      · cases h
      · rename_i rows' hrows
        split at hrows
        · cases hrows
        · cases hrows
          cases h
          rfl

/-- **C30**, requests.  If the estimator `e` of a parameter with set point requires a measurement
at `p` and all estimators before it that belong to parameters with set point require nothing, the
suggestion is `p`.  Only these estimators have been asked. -/
theorem requests_have_priority (I : EstI E ι) (lstsq : Lstsq ι) (tuned : List String)
    (s : State E ι) (tj : Option (List (ι → Val))) (htj : tunedJacobian I tuned s = .ok tj)
    (A B : List (Row × E)) (r : Row) (e : E) (hsplit : s.target.zip s.ests = A ++ (r, e) :: B)
    (hA : ∀ re ∈ A, re.1.desired ≠ none → Silent I s.gates tj re.2)
    (hr : r.desired ≠ none) (p : ι → Option Val) (hp : (I.require s.gates tj e).2 = .ok (some p))
    (hne : ∃ i, p i ≠ none) :
    suggest I lstsq tuned s =
      ({ s with ests := A.map (passed I s.gates tj) ++
          (I.require s.gates tj e).1 :: B.map Prod.snd }, .ok p) := by
  have hask : ask I s.gates tj ((r, e) :: B) =
      ((I.require s.gates tj e).1 :: B.map Prod.snd, .ok (some p)) := by
    unfold ask
    rw [if_neg (by simpa using hr)]
    rcases hreq : I.require s.gates tj e with ⟨e', res⟩
    rw [hreq] at hp
    simp only at hp
    subst hp
    simp only
    rw [if_pos hne]
  unfold suggest
  rw [htj]
  simp only
  rw [hsplit, ask_append I s.gates tj A _ hA, hask]

/-- **C30**, Newton step.  If no estimator of a parameter with set point requires a measurement,
the result is the Newton step of solver.py:226-243, and only these estimators have been asked. -/
theorem newton_step_without_requests (I : EstI E ι) (lstsq : Lstsq ι) (tuned : List String)
    (s : State E ι) (tj : Option (List (ι → Val))) (htj : tunedJacobian I tuned s = .ok tj)
    (hlen : s.target.length = s.ests.length)
    (hA : ∀ re ∈ s.target.zip s.ests, re.1.desired ≠ none → Silent I s.gates tj re.2) :
    (suggest I lstsq tuned s).1 =
      { s with ests := (s.target.zip s.ests).map (passed I s.gates tj) } ∧
    ((∀ p, newtonStep I lstsq (suggest I lstsq tuned s).1 = .ok p →
      (suggest I lstsq tuned s).2 = .ok fun i => open Classical in
        if i ∈ s.gates then some (p i) else none) ∧
     (∀ err, newtonStep I lstsq (suggest I lstsq tuned s).1 = .error err →
      (suggest I lstsq tuned s).2 = .error err)) := by
  have hask := ask_append I s.gates tj (s.target.zip s.ests) [] hA
  have hnil : ask I s.gates tj [] = ([], .ok none) := rfl
  rw [hnil, List.append_nil, List.append_nil] at hask
  rcases hstep : newtonStep I lstsq
    { s with ests := (s.target.zip s.ests).map (passed I s.gates tj) } with err | p
  · have : suggest I lstsq tuned s =
        ({ s with ests := (s.target.zip s.ests).map (passed I s.gates tj) }, .error err) := by
      unfold suggest
      rw [htj]
      simp only [hask, hstep]
    rw [this]
    refine ⟨rfl, ?_, ?_⟩
    · intro p hp; rw [hstep] at hp; cases hp
    · intro err' h; rw [hstep] at h; cases h; rfl
  · have : suggest I lstsq tuned s =
        ({ s with ests := (s.target.zip s.ests).map (passed I s.gates tj) },
          .ok fun i => open Classical in if i ∈ s.gates then some (p i) else none) := by
      unfold suggest
      rw [htj]
      simp only [hask, hstep]
    rw [this]
    refine ⟨rfl, ?_, ?_⟩
    · intro p' hp; rw [hstep] at hp; cases hp; rfl
    · intro err' h; rw [hstep] at h; cases h

theorem ask_unasked (I : EstI E ι) (gates : List ι) (tj : Option (List (ι → Val)))
    (res : List (Row × E)) (k : Nat) (r : Row) (e : E) (hk : res[k]? = some (r, e))
    (hd : r.desired = none) : (ask I gates tj res).1[k]? = some e := by
  induction res generalizing k with
  | nil => simp at hk
  | cons re rest ih =>
    obtain ⟨r', e'⟩ := re
    cases k with
    | zero =>
      simp only [List.getElem?_cons_zero, Option.some.injEq, Prod.mk.injEq] at hk
      obtain ⟨rfl, rfl⟩ := hk
      unfold ask
      rw [if_pos (by simp [hd])]
      rfl
    | succ k =>
      simp only [List.getElem?_cons_succ] at hk
      have ih := ih k hk
      have hrest : (rest.map Prod.snd)[k]? = some e := by simp [hk]
      unfold ask
      split_ifs
      · simpa using ih
      · split
        · simpa using hrest
        · split
          · split_ifs
            · simpa using hrest
            · simpa using ih
          · simpa using ih

theorem ask_length (I : EstI E ι) (gates : List ι) (tj : Option (List (ι → Val)))
    (res : List (Row × E)) : (ask I gates tj res).1.length = res.length := by
  induction res with
  | nil => rfl
  | cons re rest ih =>
    obtain ⟨r', e'⟩ := re
    unfold ask
    split_ifs
    · simpa using ih
    · split
      · simp
      · split
        · split_ifs
          · simp
          · simpa using ih
        · simpa using ih

/-- **C30**.  The estimator of a parameter without set point is not asked: its state is what it was,
for every kind of estimator and every outcome. -/
theorem no_set_point_never_asked (I : EstI E ι) (lstsq : Lstsq ι) (tuned : List String)
    (s : State E ι) (k : Nat) (r : Row) (e : E) (hr : s.target[k]? = some r)
    (he : s.ests[k]? = some e) (hd : r.desired = none) :
    (suggest I lstsq tuned s).1.ests[k]? = some e := by
  have hzip : (s.target.zip s.ests)[k]? = some (r, e) := by
    rw [List.getElem?_zip_eq_some]
    exact ⟨hr, he⟩
  have key := fun tj => ask_unasked I s.gates tj _ k r e hzip hd
  unfold suggest
  split
  · exact he
  · rename_i tj _
    have := key tj
    rcases hask : ask I s.gates tj (s.target.zip s.ests) with ⟨es, res⟩
    rw [hask] at this
    rcases res with err | (_ | p)
    · exact this
    · simp only
      split
      · exact this
      · exact this
    · exact this

/-! ## Updates -/

theorem feed_spec (I : EstI E ι) (T : Target) (v : Volt ι) :
    ∀ (es : List E) (values : Series) (variances : List Val) (es' : List E),
      es.length = values.length → values.length ≤ variances.length →
      feed I T v es values variances = (es', .ok ()) →
      es'.length = es.length ∧
      ∀ (k : Nat) (l : String) (x y : Val) (e : E), es[k]? = some e → values[k]? = some (l, x) →
        variances[k]? = some y → ∃ r, T.row? l = some r ∧
          es'[k]? = some (if r.desired = none then e else (I.update v x y e).1) ∧
          (r.desired ≠ none → (I.update v x y e).2 = .ok ()) := by
  intro es
  induction es with
  | nil =>
    intro values variances es' hl hl' h
    have : es' = [] := by
      unfold feed at h
      cases h
      rfl
    subst this
    exact ⟨rfl, fun k l x y e he => by simp at he⟩
  | cons e es ih =>
    intro values variances es' hl hl' h
    match values, variances, hl, hl' with
    | (l, x) :: values, y :: variances, hl, hl' =>
      simp only [List.length_cons, Nat.add_right_cancel_iff] at hl
      simp only [List.length_cons, Nat.add_le_add_iff_right] at hl'
      unfold feed at h
      rcases hrow : T.row? l with _ | r
      · rw [hrow] at h; cases h
      · rw [hrow] at h
        simp only at h
        rcases hfeed : feed I T v es values variances with ⟨es₁, res⟩
        by_cases hd : r.desired = none
        · rw [if_pos (by simp [hd]), hfeed] at h
          simp only [Prod.mk.injEq] at h
          obtain ⟨rfl, rfl⟩ := h
          obtain ⟨hlen, hall⟩ := ih values variances es₁ hl hl' hfeed
          refine ⟨by simp [hlen], fun k l' x' y' e' he hv hs => ?_⟩
          cases k with
          | zero =>
            simp only [List.getElem?_cons_zero, Option.some.injEq, Prod.mk.injEq] at he hv hs
            obtain ⟨rfl, rfl⟩ := hv
            subst he hs
            exact ⟨r, hrow, by simp [hd], fun hn => absurd hd hn⟩
          | succ k =>
            simp only [List.getElem?_cons_succ] at he hv hs ⊢
            exact hall k l' x' y' e' he hv hs
        · rw [if_neg (by simpa using hd)] at h
          rcases hupd : I.update v x y e with ⟨e₁, ures⟩
          rw [hupd] at h
          rcases ures with err | _
          · cases h
          · simp only [hfeed, Prod.mk.injEq] at h
            obtain ⟨rfl, rfl⟩ := h
            obtain ⟨hlen, hall⟩ := ih values variances es₁ hl hl' hfeed
            refine ⟨by simp [hlen], fun k l' x' y' e' he hv hs => ?_⟩
            cases k with
            | zero =>
              simp only [List.getElem?_cons_zero, Option.some.injEq, Prod.mk.injEq] at he hv hs
              obtain ⟨rfl, rfl⟩ := hv
              subst he hs
              refine ⟨r, hrow, ?_, fun _ => by rw [hupd]⟩
              simp [hd, hupd]
            | succ k =>
              simp only [List.getElem?_cons_succ] at he hv hs ⊢
              exact hall k l' x' y' e' he hv hs

theorem row?_getElem {T : Target} (hnd : T.names.Nodup) {k : Nat} {r : Row} (h : T[k]? = some r) :
    T.row? r.name = some r := by
  induction T generalizing k with
  | nil => simp at h
  | cons a T ih =>
    have hnd' : a.name ∉ T.map Row.name ∧ (T.map Row.name).Nodup := List.nodup_cons.1 hnd
    unfold Target.row?
    rw [List.find?_cons]
    cases k with
    | zero =>
      simp only [List.getElem?_cons_zero, Option.some.injEq] at h
      subst h
      simp
    | succ k =>
      simp only [List.getElem?_cons_succ] at h
      have hne : ¬ (a.name == r.name) = true := by
        simp only [beq_iff_eq]
        intro heq
        exact hnd'.1 (heq ▸ List.mem_map_of_mem (List.mem_of_getElem? h))
      rw [Bool.not_eq_true] at hne
      rw [hne]
      exact ih hnd'.2 h

/-- **C31**, the case in which it holds: the variances come in the order of the target, the values in
any order.  The estimator of each parameter with set point has then been updated with the voltages,
the value and the variance of that parameter, the others are unchanged, and the solver has taken
over position and values.
Missing: variances in another order, see `own_variance_refuted`. -/
theorem own_value_and_variance_partial (I : EstI E ι) (v : Volt ι) (values variances : Series)
    (s s' : State E ι) (hnd : s.target.names.Nodup) (hlen : s.ests.length = s.target.length)
    (hidx : s.values.index = s.target.names) (hvar : variances.index = s.target.names)
    (h : update I v values variances s = (s', .ok ())) :
    (∀ (k : Nat) (r : Row) (e : E), s.target[k]? = some r → s.ests[k]? = some e →
      s'.ests[k]? = some (if r.desired = none then e
        else (I.update v (values.val r.name) (variances.val r.name) e).1)) ∧
    s'.pos = v ∧ s'.target = s.target ∧ s'.gates = s.gates ∧
    s'.values = s.target.names.map fun l => (l, values.val l) := by
  unfold update at h
  rcases hsel : values.select s.values.index with err | vals
  · rw [hsel] at h; cases h
  · rw [hsel] at h
    have hvals := Series.select_ok hsel
    rw [hidx] at hvals
    simp only at h
    rcases hfeed : feed I s.target v s.ests vals (variances.map Prod.snd) with ⟨es, res⟩
    rw [hfeed] at h
    rcases res with err | _
    · cases h
    · simp only [Prod.mk.injEq, and_true] at h
      subst h
      have hlv : vals.length = s.target.length := by
        rw [hvals]; simp [Target.names]
      have hlvar : variances.length = s.target.length := by
        have := congrArg List.length hvar
        simpa [Series.index, Target.names] using this
      obtain ⟨-, hall⟩ := feed_spec I s.target v s.ests vals (variances.map Prod.snd) es
        (by omega) (by simp; omega) hfeed
      refine ⟨?_, rfl, rfl, rfl, hvals⟩
      intro k r e hr he
      have hk : k < variances.length := by
        have := (List.getElem?_eq_some_iff.1 hr).1
        omega
      have hname : s.target.names[k]? = some r.name := by
        simp [Target.names, hr]
      have hv : vals[k]? = some (r.name, values.val r.name) := by
        rw [hvals, List.getElem?_map, hname]
        rfl
      have hyl : variances[k].1 = r.name := by
        have : variances.index[k]? = some r.name := by rw [hvar]; exact hname
        simpa [Series.index, hk] using this
      have hy : variances.val r.name = variances[k].2 := by
        have hndv : (variances.map Prod.fst).Nodup := by
          have : variances.index.Nodup := by rw [hvar]; exact hnd
          exact this
        have : variances.lookup r.name = some variances[k].2 := by
          rw [← hyl]
          clear hall hv hyl hname hr he hvals hlv hlvar hfeed hvar
          induction variances generalizing k with
          | nil => simp at hk
          | cons a vs ih =>
            rw [List.map_cons, List.nodup_cons] at hndv
            obtain ⟨l₀, x₀⟩ := a
            cases k with
            | zero => simp [List.lookup_cons]
            | succ k =>
              have hk' : k < vs.length := by simpa using hk
              have hne : ¬ vs[k].1 = l₀ := by
                intro heq
                exact hndv.1 (by
                  rw [← heq]
                  exact List.mem_map.2 ⟨vs[k], List.getElem_mem hk', rfl⟩)
              simp only [List.getElem_cons_succ, List.lookup_cons]
              rw [beq_eq_false_iff_ne.2 hne]
              exact ih k hk' hndv.2
        simp [Series.val, this]
      obtain ⟨r', hr', hes, -⟩ := hall k r.name (values.val r.name) variances[k].2 e he hv
        (by simp [hk])
      rw [row?_getElem hnd hr] at hr'
      cases hr'
      rw [hes, hy]

/-- A row of a target with the given name and desired value. -/
def plainRow (name : String) (desired : Val) : Row := ⟨name, desired, none, none, none, none, some 1⟩

/-- **C31** is false: with two parameters and variances in the opposite order, each estimator is
updated with the variance of the other parameter, whatever the estimators do. -/
theorem own_variance_refuted (I : EstI E ι) (v : Volt ι) (da db : ℝ) (ea eb : E) (gates : List ι)
    (pos : ι → Val) (x y : Val) (a b xa xb va vb : Val)
    (ha : (I.update v xa vb ea).2 = .ok ()) (hb : (I.update v xb va eb).2 = .ok ()) :
    update I v [("a", xa), ("b", xb)] [("b", vb), ("a", va)]
      ⟨[plainRow "a" (some da), plainRow "b" (some db)], [ea, eb], gates, pos, [("a", x), ("b", y)]⟩ =
    (⟨[plainRow "a" (some da), plainRow "b" (some db)],
      [(I.update v xa vb ea).1, (I.update v xb va eb).1], gates, v, [("a", xa), ("b", xb)]⟩,
      .ok ()) := by
  rcases h1 : I.update v xa vb ea with ⟨ea', ra⟩
  rcases h2 : I.update v xb va eb with ⟨eb', rb⟩
  rw [h1] at ha
  rw [h2] at hb
  simp only at ha hb
  subst ha hb
  simp [update, Series.select, Series.index, Series.val, List.lookup, feed, Target.row?, plainRow, h1, h2]

/-! ## Parameters without gradient -/

/-- Calls of the solver. -/
inductive Call (ι : Type)
  | update (v : Volt ι) (values variances : Series)
  | suggest (tuned : List String)
  | setPosition (v : Volt ι)

/-- The state after a call, whether it raises or not. -/
noncomputable def call (I : EstI E ι) (lstsq : Lstsq ι) (s : State E ι) : Call ι → State E ι
  | .update v values variances => (update I v values variances s).1
  | .suggest tuned => (suggest I lstsq tuned s).1
  | .setPosition v => (solver I lstsq).setPosition v s

theorem feed_unasked (I : EstI E ι) (T : Target) (v : Volt ι) :
    ∀ (es : List E) (values : Series) (variances : List Val) (k : Nat) (e : E) (l : String) (r : Row),
      es[k]? = some e → values.index[k]? = some l → T.row? l = some r → r.desired = none →
      (feed I T v es values variances).1[k]? = some e := by
  intro es
  induction es with
  | nil => intro values variances k e l r he; simp at he
  | cons e₀ es ih =>
    intro values variances k e l r he hl hr hd
    match values, variances with
    | [], _ => simp [Series.index] at hl
    | (l₀, x) :: values, [] => exact he
    | (l₀, x) :: values, y :: variances =>
      unfold feed
      cases k with
      | zero =>
        simp only [Series.index, List.map_cons, List.getElem?_cons_zero, Option.some.injEq] at hl he
        subst hl he
        rw [hr]
        simp only
        rw [if_pos (by simp [hd])]
        rfl
      | succ k =>
        have hl' : Series.index values = values.map Prod.fst := rfl
        simp only [Series.index, List.map_cons, List.getElem?_cons_succ] at hl he
        have ih := ih values variances k e l r he (by rw [hl']; exact hl) hr hd
        split
        · exact he
        · split_ifs
          · simpa using ih
          · split
            · exact he
            · simpa using ih

/-- Parameter `k` has no set point, its estimator is `e`. -/
structure Untouched (k : Nat) (r : Row) (e : E) (s : State E ι) : Prop where
  row : s.target[k]? = some r
  noSetPoint : r.desired = none
  names : s.target.names.Nodup
  index : s.values.index = s.target.names
  est : s.ests[k]? = some e

theorem Untouched.call {k : Nat} {r : Row} {e : E} {s : State E ι} (h : Untouched k r e s)
    (I : EstI E ι) (lstsq : Lstsq ι) (c : Call ι) : Untouched k r e (call I lstsq s c) := by
  cases c with
  | setPosition v => exact ⟨h.row, h.noSetPoint, h.names, h.index, h.est⟩
  | suggest tuned =>
    have he := no_set_point_never_asked I lstsq tuned s k r e h.row h.est h.noSetPoint
    have hsame : (suggest I lstsq tuned s).1.target = s.target ∧
        (suggest I lstsq tuned s).1.values = s.values := by
      unfold suggest
      split
      · exact ⟨rfl, rfl⟩
      · split
        · exact ⟨rfl, rfl⟩
        · exact ⟨rfl, rfl⟩
        · split
          · exact ⟨rfl, rfl⟩
          · exact ⟨rfl, rfl⟩
    exact ⟨hsame.1 ▸ h.row, h.noSetPoint, hsame.1 ▸ h.names, by
      change (suggest I lstsq tuned s).1.values.index = _
      rw [hsame.2, h.index]
      exact congrArg _ hsame.1.symm, he⟩
  | update v values variances =>
    change Untouched k r e (update I v values variances s).1
    unfold update
    split
    · exact h
    · rename_i vals hsel
      have hvals := Series.select_ok hsel
      have hi : Series.index vals = s.target.names := by
        rw [hvals, Series.index_map_mk, h.index]
      have hlab : (Series.index vals)[k]? = some r.name := by
        rw [hi]; simp [Target.names, h.row]
      have hes := feed_unasked I s.target v s.ests vals (variances.map Prod.snd) k e r.name r h.est
        hlab (row?_getElem h.names h.row) h.noSetPoint
      split
      · rename_i es err hf
        rw [hf] at hes
        exact ⟨h.row, h.noSetPoint, h.names, h.index, hes⟩
      · rename_i es hf
        rw [hf] at hes
        exact ⟨h.row, h.noSetPoint, h.names, hi, hes⟩

theorem concat_length_lt {l : List (Option (ι → Val))} {rows : List (ι → Val)}
    (h : concat l = .ok rows) (hnone : none ∈ l) : rows.length < l.length := by
  have hrows : rows = l.filterMap id := by
    unfold concat at h
    split at h
    · cases h
    · cases h; rfl
  subst hrows
  clear h
  induction l with
  | nil => simp at hnone
  | cons a l ih =>
    cases a with
    | none =>
      have := List.length_filterMap_le id l
      simp only [List.filterMap_cons, id, List.length_cons]
      exact Nat.lt_succ_of_le this
    | some x =>
      have hl : none ∈ l := by simpa using hnone
      have := ih hl
      simpa using this

/-- An estimator's request, or an error. -/
theorem ask_request (I : EstI E ι) (gates : List ι) (tj : Option (List (ι → Val)))
    (res : List (Row × E)) (p : ι → Option Val) (h : (ask I gates tj res).2 = .ok (some p)) :
    ∃ re ∈ res, (I.require gates tj re.2).2 = .ok (some p) := by
  induction res with
  | nil => cases h
  | cons re rest ih =>
    obtain ⟨r, e⟩ := re
    unfold ask at h
    split_ifs at h
    · obtain ⟨re, hre, hp⟩ := ih h
      exact ⟨re, List.mem_cons_of_mem _ hre, hp⟩
    · rcases hreq : I.require gates tj e with ⟨e', _ | (_ | q)⟩
      · rw [hreq] at h; cases h
      · rw [hreq] at h
        obtain ⟨re, hre, hp⟩ := ih h
        exact ⟨re, List.mem_cons_of_mem _ hre, hp⟩
      · rw [hreq] at h
        simp only at h
        split_ifs at h
        · cases h
          exact ⟨(r, e), List.mem_cons_self, by rw [hreq]⟩
        · obtain ⟨re, hre, hp⟩ := ih h
          exact ⟨re, List.mem_cons_of_mem _ hre, hp⟩

/-- **C78** is false: if a parameter without set point starts with an estimator that has no
gradient, then after any calls whatsoever the solver never makes a Newton step: every suggestion is
the measurement request of an estimator, and if nobody requests anything the result is `LinAlgError`
or `ValueError`. -/
theorem missing_gradient_refuted (I : EstI E ι) (lstsq : Lstsq ι) (k : Nat) (r : Row) (e : E)
    (s₀ : State E ι) (h₀ : Untouched k r e s₀) (hno : I.estimate e = none) (calls : List (Call ι))
    (tuned : List String) :
    let s := calls.foldl (call I lstsq) s₀
    (∀ p, (suggest I lstsq tuned s).2 = .ok p →
      ∃ e' ∈ s.ests, ∃ tj, (I.require s.gates tj e').2 = .ok (some p)) ∧
    (s.target.length = s.ests.length →
      (∀ re ∈ s.target.zip s.ests, re.1.desired ≠ none → ∀ tj, Silent I s.gates tj re.2) →
      (suggest I lstsq tuned s).2 = .error .linAlgError ∨
      (suggest I lstsq tuned s).2 = .error .valueError) := by
  have hinv : ∀ (calls : List (Call ι)) (s : State E ι), Untouched k r e s →
      Untouched k r e (calls.foldl (call I lstsq) s) := by
    intro calls
    induction calls with
    | nil => intro s h; exact h
    | cons c cs ih => intro s h; exact ih _ (h.call I lstsq c)
  have h := hinv calls s₀ h₀
  intro s
  change Untouched k r e s at h
  have hzip : (s.target.zip s.ests)[k]? = some (r, e) := by
    rw [List.getElem?_zip_eq_some]
    exact ⟨h.row, h.est⟩
  have step : ∀ es, es[k]? = some e → es.length ≤ s.target.length →
      newtonStep I lstsq { s with ests := es } = .error .linAlgError ∨
      newtonStep I lstsq { s with ests := es } = .error .valueError := by
    intro es he hle
    unfold newtonStep
    simp only
    rcases hc : concat (es.map I.estimate) with err | rows
    · right
      unfold concat at hc
      split at hc <;> cases hc
      rfl
    · left
      have hmem : none ∈ es.map I.estimate := hno ▸ List.mem_map_of_mem (List.mem_of_getElem? he)
      have hlt := concat_length_lt hc hmem
      simp only [List.length_map] at hlt
      simp only
      rw [if_pos (by simp; omega)]
  have hmain : ∀ tj, (ask I s.gates tj (s.target.zip s.ests)).2 = .ok none →
      newtonStep I lstsq { s with ests := (ask I s.gates tj (s.target.zip s.ests)).1 } =
        .error .linAlgError ∨
      newtonStep I lstsq { s with ests := (ask I s.gates tj (s.target.zip s.ests)).1 } =
        .error .valueError := by
    intro tj _
    apply step
    · exact ask_unasked I s.gates tj _ k r e hzip h.noSetPoint
    · rw [ask_length, List.length_zip]
      exact min_le_left _ _
  constructor
  · intro p hp
    unfold suggest at hp
    split at hp
    · cases hp
    · rename_i tj htj
      have hm := hmain tj
      rcases hask : ask I s.gates tj (s.target.zip s.ests) with ⟨es, res⟩
      rw [hask] at hp hm
      rcases res with err | (_ | q)
      · cases hp
      · exfalso
        simp only at hp
        rcases hm rfl with hs | hs <;> rw [hs] at hp <;> cases hp
      · simp only at hp
        cases hp
        obtain ⟨re, hre, hq⟩ := ask_request I s.gates tj (s.target.zip s.ests) p (by rw [hask])
        exact ⟨re.2, (List.of_mem_zip hre).2, tj, hq⟩
  · intro hlen hquiet
    unfold suggest
    rcases htj : tunedJacobian I tuned s with err | tj
    · right
      have : err = .valueError := by
        unfold tunedJacobian at htj
        split at htj
        · cases htj
        · split at htj
          · rename_i hc
            cases htj
            unfold concat at hc
            split at hc <;> cases hc
            rfl
          · cases htj
      rw [this]
    · have hask := ask_append I s.gates tj (s.target.zip s.ests) []
        (fun re hre hd => hquiet re hre hd tj)
      have hnil : ask I s.gates tj [] = ([], .ok none) := rfl
      rw [hnil, List.append_nil, List.append_nil] at hask
      have hm := hmain tj
      rw [hask] at hm
      simp only [hask]
      rcases hm rfl with hs | hs <;> rw [hs]
      · exact Or.inl rfl
      · exact Or.inr rfl

/-! ## Cases that meet the hypotheses -/

/-- An estimator with a fixed gradient that never requires anything and records its updates. -/
def fixedI (ι : Type) : EstI (Option (ι → Val) × List (Val × Val)) ι where
  estimate := Prod.fst
  require := fun _ _ e => (e, .ok none)
  update := fun _ x y e => ((e.1, e.2 ++ [(x, y)]), .ok ())

/-- Two gates and one parameter with gradient (3, -2), value 1 and set point 5. -/
noncomputable def sample : State (Option (Fin 2 → Val) × List (Val × Val)) (Fin 2) :=
  ⟨[plainRow "a" (some 5)], [(some ![some 3, some (-2)], [])], [0, 1], fun _ => some 0, [("a", some 1)]⟩

theorem sample_ready : Ready (m := 1) (fixedI (Fin 2)) sample (fun _ => 0) (fun _ => ![3, -2]) where
  size := rfl
  pos := rfl
  quiet := fun _ _ _ _ => rfl
  gradients := by
    simp only [sample, fixedI, List.map_cons, List.map_nil, List.ofFn_succ, List.ofFn_zero]
    congr 2
    funext i
    fin_cases i <;> rfl
  rank := by
    unfold FullRowRank
    rw [linearIndependent_unique_iff]
    intro h
    have := congrFun h ⟨0, by simp [sample]⟩
    simp at this

example : ∃ (lstsq : Lstsq (Fin 2)) (x : Fin 2 → ℝ),
    suggest (fixedI (Fin 2)) lstsq [] sample =
      (sample, .ok fun i => if i ∈ sample.gates then some (some (0 + x i)) else none) ∧
    1 + change sample.gates ![3, -2] x = 5 := by
  obtain ⟨lstsq, hl⟩ := exists_lstsq (Fin 2)
  obtain ⟨x, h1, h2, -⟩ := newton_step_meets_set_points hl sample_ready one_ne_zero [] (fun _ => 1)
    (fun _ => 5) (by
      intro k r hr
      obtain rfl : k = 0 := Subsingleton.elim _ _
      simp only [sample, Fin.coe_ofNat_eq_mod, Nat.zero_mod, List.getElem?_cons_zero,
        Option.some.injEq, Fin.getElem?_fin] at hr
      subst hr
      exact ⟨rfl, rfl⟩)
  exact ⟨lstsq, x, h1, h2 0⟩

/-- The same state with the desired value left out. -/
noncomputable def sampleFree : State (Option (Fin 2 → Val) × List (Val × Val)) (Fin 2) :=
  { sample with target := [plainRow "a" none] }

example : ∃ (lstsq : Lstsq (Fin 2)) (x : Fin 2 → ℝ),
    suggest (fixedI (Fin 2)) lstsq [] sampleFree =
      (sampleFree, .ok fun i => if i ∈ sampleFree.gates then some (some (0 + x i)) else none) ∧
    1 + change sampleFree.gates ![3, -2] x = 0 := by
  obtain ⟨lstsq, hl⟩ := exists_lstsq (Fin 2)
  have hr : Ready (m := 1) (fixedI (Fin 2)) sampleFree (fun _ => 0) (fun _ => ![3, -2]) :=
    ⟨rfl, rfl, fun _ _ _ _ => rfl, sample_ready.gradients, sample_ready.rank⟩
  obtain ⟨x, h1, h2⟩ := missing_set_point_refuted hl hr [] 0 _ rfl rfl 1 rfl
  exact ⟨lstsq, x, h1, h2⟩

/-- An estimator without gradient for a parameter without set point. -/
example : Untouched (ι := Fin 2) 0 (plainRow "a" none) ((none : Option (Fin 2 → Val)), ([] : List (Val × Val)))
    { sampleFree with ests := [(none, [])] } :=
  ⟨rfl, rfl, by simp [sampleFree, Target.names], rfl, rfl⟩

example : (update (fixedI (Fin 2)) (fun _ => none) [("b", some 4), ("a", some 2)] [("a", some 7)]
    sample).1.ests = [(some ![some 3, some (-2)], [(some 2, some 7)])] := by
  simp [update, Series.select, Series.index, Series.val, List.lookup, feed, Target.row?, plainRow,
    sample, fixedI]

end Qtune.Newton
