import Verif.EndToEnd.Cycles
import Verif.Newton.Props
import Verif.Autotuner.PropsInterrupt

/-! # Estimators for which a second evaluation at the same voltages has no effect -/

namespace Qtune.EndToEnd

open Qtune.Tuner Qtune.Gradient Qtune.Autotuner

variable {n m : Nat} {X : Type}

/-- Requests do not change an estimator, nor does an update that is repeated. -/
structure Settled (I : Newton.EstI X (Fin n)) : Prop where
  require : ∀ g J e, (I.require g J e).1 = e
  update : ∀ v x y e e', I.update v x y e = (e', .ok ()) → I.update v x y e' = (e', .ok ())

/-- Tuners without a maximal step size that differ only in how often they have been evaluated. -/
structure Twin (t' t : OneTuner X n) : Prop where
  rest : t' = { t with tunedVoltages := t'.tunedVoltages, evaluatable := t'.evaluatable }
  last : t'.evaluatable.getLast? = t.evaluatable.getLast?
  length : t.solver.ests.length = t.solver.target.length
  maxStep : t.maxStep = none

theorem ask_settled {I : Newton.EstI X (Fin n)} (hI : Settled I) (g : List (Fin n)) (J : Option (List (Fin n → Val)))
    (T : Target) : ∀ es : List X, es.length = T.length → (Newton.ask I g J (T.zip es)).1 = es := by
  induction T with
  | nil =>
    intro es hlen
    obtain rfl := List.length_eq_zero_iff.1 hlen
    simp [Newton.ask]
  | cons r T ih =>
    intro es hlen
    obtain ⟨e, es, rfl⟩ := List.exists_cons_of_length_eq_add_one hlen
    simp only [List.length_cons, Nat.add_right_cancel_iff] at hlen
    have i2 := ih es hlen
    have hz : (T.zip es).map Prod.snd = es := List.map_snd_zip (by omega)
    have hk := hI.require g J e
    simp only [List.zip_cons_cons, Newton.ask]
    by_cases hd : r.desired.isNone = true
    · simp only [hd, if_true]
      simp [i2]
    · have hd' : r.desired.isNone = false := Bool.eq_false_iff.2 hd
      simp only [hd', Bool.false_eq_true, if_false]
      rcases hq : I.require g J e with ⟨a, ra⟩
      rw [hq] at hk
      simp only at hk
      subst hk
      rcases ra with err | (_ | p)
      · simp [hz]
      · simp [i2]
      · by_cases hp : ∃ i, p i ≠ none
        · simp only [if_pos hp]
          simp [hz]
        · simp only [if_neg hp]
          simp [i2]

theorem feed_settled {I : Newton.EstI X (Fin n)} (hI : Settled I) (T : Target) (v : Volt (Fin n)) :
    ∀ (es fs : List X) (values : Series) (vars : List Val), Newton.feed I T v es values vars = (fs, .ok ()) →
      Newton.feed I T v fs values vars = (fs, .ok ()) ∧ fs.length = es.length := by
  intro es
  induction es with
  | nil =>
    intro fs values vars h
    simp only [Newton.feed, Prod.mk.injEq] at h
    rw [← h.1]
    simp [Newton.feed]
  | cons e es ih =>
    intro fs values vars h
    rcases values with _ | ⟨⟨l, x⟩, values⟩
    · simp only [Newton.feed, Prod.mk.injEq] at h
      rw [← h.1]
      simp [Newton.feed]
    rcases vars with _ | ⟨y, vars⟩
    · simp only [Newton.feed, Prod.mk.injEq] at h
      rw [← h.1]
      simp [Newton.feed]
    simp only [Newton.feed] at h
    rcases hr : T.row? l with _ | r
    · simp [hr] at h
    · simp only [hr] at h
      by_cases hd : r.desired.isNone = true
      · simp only [hd, if_true] at h
        rcases hq : Newton.feed I T v es values vars with ⟨gs, res⟩
        rw [hq] at h
        simp only [Prod.mk.injEq] at h
        obtain ⟨rfl, rfl⟩ := h
        obtain ⟨i1, i2⟩ := ih gs values vars hq
        simp only [Newton.feed, hr, hd, if_true, i1]
        exact ⟨trivial, by simp [i2]⟩
      · have hd' : r.desired.isNone = false := Bool.eq_false_iff.2 hd
        simp only [hd', Bool.false_eq_true, if_false] at h
        rcases hu : I.update v x y e with ⟨a, err | u⟩
        · simp [hu] at h
        · simp only [hu] at h
          rcases hq : Newton.feed I T v es values vars with ⟨gs, res⟩
          rw [hq] at h
          simp only [Prod.mk.injEq] at h
          obtain ⟨rfl, rfl⟩ := h
          obtain ⟨i1, i2⟩ := ih gs values vars hq
          simp only [Newton.feed, hr, hd', Bool.false_eq_true, if_false, hI.update v x y e a hu, i1]
          exact ⟨trivial, by simp [i2]⟩

theorem update_settled {I : Newton.EstI X (Fin n)} (hI : Settled I) {v : Volt (Fin n)} {x y : Series} {s s' : Newton.State X (Fin n)}
    (h : Newton.update I v x y s = (s', .ok ())) : Newton.update I v x y s' = (s', .ok ()) ∧ s'.target = s.target ∧
      s'.ests.length = s.ests.length := by
  unfold Newton.update at h
  rcases hx : x.select s.values.index with e | xs
  · simp [hx] at h
  · simp only [hx] at h
    rcases hq : Newton.feed I s.target v s.ests xs (y.map Prod.snd) with ⟨fs, err | u⟩
    · simp [hq] at h
    · simp only [hq, Prod.mk.injEq] at h
      obtain ⟨rfl, -⟩ := h
      obtain ⟨i1, i2⟩ := feed_settled hI s.target v s.ests fs xs _ hq
      refine ⟨?_, rfl, i2⟩
      have hidx : xs.index = s.values.index := by rw [Series.select_ok hx]; exact Series.index_map_mk _ _
      unfold Newton.update
      simp only [hidx, hx, i1]

/-- A suggestion leaves no trace, and is the same. -/
theorem Twin.next {I : Newton.EstI X (Fin n)} (hI : Settled I) {lstsq : Newton.Lstsq (Fin n)} {t' t : OneTuner X n}
    (h : Twin t' t) : (nextVoltages (Newton.solver I lstsq) [] t').2 = (nextVoltages (Newton.solver I lstsq) [] t).2 ∧
      (nextVoltages (Newton.solver I lstsq) [] t').1 = t' := by
  obtain ⟨hrest, hlast, hlen, hmax⟩ := h
  obtain ⟨⟨T, es, g, p, vals⟩, a1, a2, a3, a4, a5, a6, a7, a8, a9⟩ := t
  obtain ⟨b1, hb1⟩ : ∃ b1, b1 = t'.tunedVoltages := ⟨_, rfl⟩
  obtain ⟨b6, hb6⟩ : ∃ b6, b6 = t'.evaluatable := ⟨_, rfl⟩
  rw [← hb1, ← hb6] at hrest
  rw [← hb6] at hlast
  simp only at hrest hlast hlen hmax
  subst hmax
  subst hrest
  have hJ : ∀ s : Newton.State X (Fin n), Newton.tunedJacobian I [] s = .ok none := fun s =>
    (Newton.tuned_jacobian_rows I [] s).1 (by simp)
  have hsl : ∀ (q : Int) (x : Volt (Fin n)), slice none a8 q x = .ok (q, x) := by
    intro q x
    unfold slice
    cases norm x <;> rfl
  have hask := ask_settled hI g none T es hlen
  have hsug : (Newton.suggest I lstsq [] ⟨T, es, g, p, vals⟩).1 = ⟨T, es, g, p, vals⟩ := by
    unfold Newton.suggest
    rw [hJ]
    simp only
    rcases hq : Newton.ask I g none (T.zip es) with ⟨fs, r⟩
    rw [hq] at hask
    simp only at hask
    subst hask
    rcases r with err | (_ | x)
    · rfl
    · simp only
      cases Newton.newtonStep I lstsq ⟨T, fs, g, p, vals⟩ <;> rfl
    · rfl
  unfold nextVoltages
  by_cases hf : a5 = true
  · simp only [hf, if_true, hlast]
    cases a6.getLast? with
    | none => exact ⟨rfl, rfl⟩
    | some v => exact ⟨rfl, rfl⟩
  · have hf' : a5 = false := by simpa using hf
    have hd : ∀ s : Newton.State X (Fin n), (Newton.solver I lstsq).suggest [] s = Newton.suggest I lstsq [] s := fun _ => rfl
    simp only [hf', Bool.false_eq_true, if_false, hd]
    rcases hq : Newton.suggest I lstsq [] ⟨T, es, g, p, vals⟩ with ⟨w, r⟩
    rw [hq] at hsug
    simp only at hsug
    subst hsug
    cases r with
    | error e => exact ⟨rfl, rfl⟩
    | ok x =>
      simp only [hsl]
      exact ⟨trivial, trivial⟩

/-- An evaluation has the same result, also if it is repeated. -/
theorem Twin.eval {I : Newton.EstI X (Fin n)} (hI : Settled I) {lstsq : Newton.Lstsq (Fin n)} {t' t : OneTuner X n}
    (h : Twin t' t) (outs : List Outcome) (v : Volt (Fin n)) {t₁ : OneTuner X n} {b : Bool}
    (hev : isTuned (Newton.solver I lstsq) outs v t = (t₁, .ok b)) :
    (∃ t₁', isTuned (Newton.solver I lstsq) outs v t' = (t₁', .ok b) ∧ Twin t₁' t₁) ∧
    ∃ t₂, isTuned (Newton.solver I lstsq) outs v t₁ = (t₂, .ok b) ∧ Twin t₂ t₁ := by
  obtain ⟨hrest, hlast, hlen, hmax⟩ := h
  obtain ⟨⟨T, es, g, p, vals⟩, a1, a2, a3, a4, a5, a6, a7, a8, a9⟩ := t
  obtain ⟨b1, hb1⟩ : ∃ b1, b1 = t'.tunedVoltages := ⟨_, rfl⟩
  obtain ⟨b6, hb6⟩ : ∃ b6, b6 = t'.evaluatable := ⟨_, rfl⟩
  rw [← hb1, ← hb6] at hrest
  rw [← hb6] at hlast
  simp only at hrest hlast hlen hmax
  subst hmax
  subst hrest
  have ht : ∀ s : Newton.State X (Fin n), (Newton.solver I lstsq).target s = s.target := fun _ => rfl
  have hup : ∀ (x y : Series) (s : Newton.State X (Fin n)), (Newton.solver I lstsq).update v x y s = Newton.update I v x y s := fun _ _ _ => rfl
  have hset : ∀ s : Newton.State X (Fin n), (Newton.solver I lstsq).setPosition v s = { s with pos := v } := fun _ => rfl
  unfold isTuned at hev
  simp only [ht, hup, hset] at hev
  by_cases hq : a9 ≠ 0
  · rw [if_pos hq] at hev
    simp only [Prod.mk.injEq, Except.ok.injEq] at hev
    obtain ⟨rfl, rfl⟩ := hev
    unfold isTuned
    simp only [if_pos hq, hset]
    exact ⟨⟨_, rfl, rfl, hlast, hlen, rfl⟩, _, rfl, rfl, rfl, hlen, rfl⟩
  · rw [if_neg hq] at hev
    rcases he : evaluate T outs with e | ⟨x, y⟩
    · simp [he] at hev
    simp only [he] at hev
    rcases hlv : (rescaleValues T x).select a3.index with e | lv
    · simp [hlv] at hev
    simp only [hlv] at hev
    rcases hlw : (rescaleVariances T y).select lv.index with e | lvar
    · simp [hlw] at hev
    simp only [hlw] at hev
    have hidx : lv.index = a3.index := by rw [Series.select_ok hlv]; exact Series.index_map_mk _ _
    have hlv' : (rescaleValues T x).select lv.index = .ok lv := by rw [hidx]; exact hlv
    by_cases hany : (lv.any fun e => e.2.isNone) = true
    · rw [if_pos hany] at hev
      simp only [Prod.mk.injEq, Except.ok.injEq] at hev
      obtain ⟨rfl, rfl⟩ := hev
      constructor
      · unfold isTuned
        simp only [if_neg hq, ht, he, hlv, hlw, if_pos hany]
        exact ⟨_, rfl, rfl, hlast, hlen, rfl⟩
      · unfold isTuned
        simp only [if_neg hq, ht, he, hlv', hlw, if_pos hany]
        exact ⟨_, rfl, rfl, rfl, hlen, rfl⟩
    · rw [if_neg hany] at hev
      rcases hu : Newton.update I v (rescaleValues T x) (rescaleVariances T y) ⟨T, es, g, p, vals⟩ with ⟨w, err | u⟩
      · simp [hu] at hev
      · obtain ⟨k1, k2, k3⟩ := update_settled hI hu
        simp only [hu] at hev
        have hwlen : w.ests.length = w.target.length := by rw [k2, k3]; exact hlen
        simp only at k2
        split_ifs at hev with hw
        · simp only [Prod.mk.injEq, Except.ok.injEq] at hev
          obtain ⟨rfl, rfl⟩ := hev
          constructor
          · unfold isTuned
            simp only [if_neg hq, ht, hup, he, hlv, hlw, if_neg hany, hu]
            rw [if_pos hw]
            exact ⟨_, rfl, rfl, by simp, hwlen, rfl⟩
          · unfold isTuned
            simp only [if_neg hq, ht, hup, k2, he, hlv', hlw, if_neg hany, k1]
            rw [if_pos (by simpa only [ht, k2] using hw)]
            exact ⟨_, rfl, rfl, by simp, hwlen, rfl⟩
        · simp only [Prod.mk.injEq, Except.ok.injEq] at hev
          obtain ⟨rfl, rfl⟩ := hev
          constructor
          · unfold isTuned
            simp only [if_neg hq, ht, hup, he, hlv, hlw, if_neg hany, hu]
            rw [if_neg hw]
            exact ⟨_, rfl, rfl, by simp, hwlen, rfl⟩
          · unfold isTuned
            simp only [if_neg hq, ht, hup, k2, he, hlv', hlw, if_neg hany, k1]
            rw [if_neg (by simpa only [ht, k2] using hw)]
            exact ⟨_, rfl, rfl, by simp, hwlen, rfl⟩

end Qtune.EndToEnd
