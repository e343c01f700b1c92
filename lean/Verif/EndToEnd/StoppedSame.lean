import Verif.EndToEnd.Cycles
import Verif.Newton.Props
import Verif.Autotuner.PropsInterrupt

/-! # Estimators whose requests leave no trace, and interrupted calls -/

namespace Qtune.EndToEnd

open Qtune.Tuner Qtune.Gradient Qtune.Autotuner

variable {n m : Nat} {X Y : Type}

/-- What `F` keeps of an estimator decides all its answers, and a request does not change it. -/
structure Repeatable (I : Newton.EstI X (Fin n)) (F : X → Y) : Prop where
  estimate : ∀ e e', F e = F e' → I.estimate e = I.estimate e'
  require : ∀ g J e e', F e = F e' → (I.require g J e).2 = (I.require g J e').2
  kept : ∀ g J e, F (I.require g J e).1 = F e
  update : ∀ v x y e e', F e = F e' → (I.update v x y e).2 = (I.update v x y e').2 ∧ F (I.update v x y e).1 = F (I.update v x y e').1

/-- Tuners without a maximal step size that differ only in what `F` forgets. -/
structure Alike (F : X → Y) (t' t : OneTuner X n) : Prop where
  rest : t' = { t with solver := { t.solver with ests := t'.solver.ests } }
  ests : t'.solver.ests.map F = t.solver.ests.map F
  length : t.solver.ests.length = t.solver.target.length
  maxStep : t.maxStep = none

theorem ask_same {I : Newton.EstI X (Fin n)} {F : X → Y} (hI : Repeatable I F) (g : List (Fin n)) (J : Option (List (Fin n → Val)))
    (T : Target) : ∀ es es' : List X, es'.map F = es.map F → es.length = T.length →
      (Newton.ask I g J (T.zip es')).2 = (Newton.ask I g J (T.zip es)).2 ∧ (Newton.ask I g J (T.zip es')).1.map F = es.map F := by
  induction T with
  | nil =>
    intro es es' h hlen
    obtain rfl := List.length_eq_zero_iff.1 hlen
    simp [Newton.ask]
  | cons r T ih =>
    intro es es' h hlen
    obtain ⟨e, es, rfl⟩ := List.exists_cons_of_length_eq_add_one hlen
    obtain ⟨e', es', rfl⟩ : ∃ e' l, es' = e' :: l := by
      cases es' with
      | nil => simp at h
      | cons a l => exact ⟨a, l, rfl⟩
    simp only [List.map_cons, List.cons.injEq] at h
    obtain ⟨h0, h⟩ := h
    simp only [List.length_cons, Nat.add_right_cancel_iff] at hlen
    obtain ⟨i1, i2⟩ := ih es es' h hlen
    have hlen' : es'.length = T.length := by
      have := congrArg List.length h
      simp at this
      omega
    have hz : (T.zip es').map Prod.snd = es' := List.map_snd_zip (by omega)
    have hk := hI.kept g J e'
    have hr := hI.require g J e' e h0
    simp only [List.zip_cons_cons, Newton.ask]
    by_cases hd : r.desired.isNone = true
    · simp only [hd, if_true]
      exact ⟨i1, by simp [i2, h0]⟩
    · have hd' : r.desired.isNone = false := Bool.eq_false_iff.2 hd
      simp only [hd', Bool.false_eq_true, if_false]
      rcases hq' : I.require g J e' with ⟨a', r'⟩
      rcases hq : I.require g J e with ⟨a, ra⟩
      rw [hq'] at hk hr
      rw [hq] at hr
      simp only at hk hr
      subst hr
      rcases r' with err | (_ | p)
      · exact ⟨rfl, by simp [hz, hk, h0, h]⟩
      · exact ⟨i1, by simp [i2, hk, h0]⟩
      · by_cases hp : ∃ i, p i ≠ none
        · simp only [if_pos hp]
          exact ⟨trivial, by simp [hz, hk, h0, h]⟩
        · simp only [if_neg hp]
          exact ⟨i1, by simp [i2, hk, h0]⟩

theorem estimates_same {I : Newton.EstI X (Fin n)} {F : X → Y} (hI : Repeatable I F) :
    ∀ es es' : List X, es'.map F = es.map F → es'.map I.estimate = es.map I.estimate := by
  intro es
  induction es with
  | nil =>
    intro es' h
    simp at h
    simp [h]
  | cons e es ih =>
    intro es' h
    cases es' with
    | nil => simp at h
    | cons a l =>
      simp only [List.map_cons, List.cons.injEq] at h ⊢
      exact ⟨hI.estimate _ _ h.1, ih _ h.2⟩

theorem feed_same {I : Newton.EstI X (Fin n)} {F : X → Y} (hI : Repeatable I F) (T : Target) (v : Volt (Fin n)) :
    ∀ (es es' : List X) (values : Series) (vars : List Val), es'.map F = es.map F →
      (Newton.feed I T v es' values vars).2 = (Newton.feed I T v es values vars).2 ∧
      (Newton.feed I T v es' values vars).1.map F = (Newton.feed I T v es values vars).1.map F ∧
      (Newton.feed I T v es values vars).1.length = es.length := by
  intro es
  induction es with
  | nil =>
    intro es' values vars h
    simp at h
    subst h
    simp [Newton.feed]
  | cons e es ih =>
    intro es' values vars h
    cases es' with
    | nil => simp at h
    | cons e' es' =>
      have hall := h
      simp only [List.map_cons, List.cons.injEq] at h
      obtain ⟨h0, h⟩ := h
      rcases values with _ | ⟨⟨l, x⟩, values⟩
      · exact ⟨rfl, hall, rfl⟩
      rcases vars with _ | ⟨y, vars⟩
      · exact ⟨rfl, hall, rfl⟩
      obtain ⟨i1, i2, i3⟩ := ih es' values vars h
      simp only [Newton.feed]
      rcases T.row? l with _ | r
      · exact ⟨rfl, hall, rfl⟩
      simp only
      by_cases hd : r.desired.isNone = true
      · simp only [hd, if_true]
        exact ⟨i1, by simp [h0, i2], by simp [i3]⟩
      · have hd' : r.desired.isNone = false := Bool.eq_false_iff.2 hd
        simp only [hd', Bool.false_eq_true, if_false]
        obtain ⟨hu1, hu2⟩ := hI.update v x y e' e h0
        rcases hq' : I.update v x y e' with ⟨a', r'⟩
        rcases hq : I.update v x y e with ⟨a, ra⟩
        rw [hq', hq] at hu1 hu2
        simp only at hu1 hu2
        subst hu1
        rcases r' with err | u
        · exact ⟨rfl, by simp [hu2, h], rfl⟩
        · exact ⟨i1, by simp [hu2, i2], by simp [i3]⟩

/-- A suggestion leaves no trace, and is the same. -/
theorem Alike.next {I : Newton.EstI X (Fin n)} {F : X → Y} (hI : Repeatable I F) {lstsq : Newton.Lstsq (Fin n)} {t' t : OneTuner X n}
    (h : Alike F t' t) : (nextVoltages (Newton.solver I lstsq) [] t').2 = (nextVoltages (Newton.solver I lstsq) [] t).2 ∧
      Alike F (nextVoltages (Newton.solver I lstsq) [] t').1 t := by
  obtain ⟨hrest, hests, hlen, hmax⟩ := h
  obtain ⟨⟨T, es, g, p, vals⟩, a1, a2, a3, a4, a5, a6, a7, a8, a9⟩ := t
  obtain ⟨es', hes'⟩ : ∃ es', es' = t'.solver.ests := ⟨_, rfl⟩
  rw [← hes'] at hrest hests
  simp only at hrest hests hlen hmax
  subst hmax
  subst hrest
  have hJ : ∀ s : Newton.State X (Fin n), Newton.tunedJacobian I [] s = .ok none := fun s =>
    (Newton.tuned_jacobian_rows I [] s).1 (by simp)
  obtain ⟨k1, k2⟩ := ask_same hI g none T es es' hests hlen
  obtain ⟨-, k2'⟩ := ask_same hI g none T es es rfl hlen
  have hsl : ∀ (q : Int) (x : Volt (Fin n)), slice none a8 q x = .ok (q, x) := by
    intro q x
    unfold slice
    cases norm x <;> rfl
  -- the suggestion of the solver
  have hsug : (Newton.suggest I lstsq [] ⟨T, es', g, p, vals⟩).2 = (Newton.suggest I lstsq [] ⟨T, es, g, p, vals⟩).2 ∧
      ∃ fs, (Newton.suggest I lstsq [] ⟨T, es', g, p, vals⟩).1 = ⟨T, fs, g, p, vals⟩ ∧ fs.map F = es.map F := by
    unfold Newton.suggest
    rw [hJ, hJ]
    simp only
    rcases hq' : Newton.ask I g none (T.zip es') with ⟨fs', r'⟩
    rcases hq : Newton.ask I g none (T.zip es) with ⟨fs, r⟩
    rw [hq', hq] at k1
    rw [hq'] at k2
    rw [hq] at k2'
    simp only at k1 k2 k2'
    subst k1
    rcases r' with err | (_ | x)
    · exact ⟨rfl, fs', rfl, k2⟩
    · have hstep : Newton.newtonStep I lstsq ⟨T, fs', g, p, vals⟩ = Newton.newtonStep I lstsq ⟨T, fs, g, p, vals⟩ := by
        unfold Newton.newtonStep
        simp only
        rw [estimates_same hI fs fs' (k2.trans k2'.symm)]
      simp only [hstep]
      cases Newton.newtonStep I lstsq ⟨T, fs, g, p, vals⟩ with
      | error e => exact ⟨rfl, fs', rfl, k2⟩
      | ok x => exact ⟨rfl, fs', rfl, k2⟩
    · exact ⟨rfl, fs', rfl, k2⟩
  obtain ⟨j1, fs, j2, j3⟩ := hsug
  have hsame : ∀ q, Alike F (⟨⟨T, fs, g, p, vals⟩, a1, a2, a3, a4, a5, a6, none, a8, q⟩ : OneTuner X n)
      ⟨⟨T, es, g, p, vals⟩, a1, a2, a3, a4, a5, a6, none, a8, q⟩ := fun q => ⟨rfl, j3, hlen, rfl⟩
  unfold nextVoltages
  by_cases hf : a5 = true
  · simp only [hf, if_true]
    cases a6.getLast? with
    | none => exact ⟨rfl, rfl, hests, hlen, rfl⟩
    | some v => exact ⟨rfl, rfl, hests, hlen, rfl⟩
  · have hf' : a5 = false := by simpa using hf
    have hd : ∀ s : Newton.State X (Fin n), (Newton.solver I lstsq).suggest [] s = Newton.suggest I lstsq [] s := fun _ => rfl
    simp only [hf', Bool.false_eq_true, if_false, hd]
    rcases hq' : Newton.suggest I lstsq [] ⟨T, es', g, p, vals⟩ with ⟨w', r'⟩
    rcases hq : Newton.suggest I lstsq [] ⟨T, es, g, p, vals⟩ with ⟨w, r⟩
    rw [hq', hq] at j1
    rw [hq'] at j2
    simp only at j1 j2
    subst j1 j2 hf'
    cases r' with
    | error e => exact ⟨rfl, hsame _⟩
    | ok x =>
      simp only [hsl]
      exact ⟨trivial, hsame _⟩

/-- An evaluation has the same result. -/
theorem Alike.eval {I : Newton.EstI X (Fin n)} {F : X → Y} (hI : Repeatable I F) {lstsq : Newton.Lstsq (Fin n)} {t' t : OneTuner X n}
    (h : Alike F t' t) (outs : List Outcome) (v : Volt (Fin n)) :
    (isTuned (Newton.solver I lstsq) outs v t').2 = (isTuned (Newton.solver I lstsq) outs v t).2 ∧
      Alike F (isTuned (Newton.solver I lstsq) outs v t').1 (isTuned (Newton.solver I lstsq) outs v t).1 := by
  obtain ⟨hrest, hests, hlen, hmax⟩ := h
  obtain ⟨⟨T, es, g, p, vals⟩, a1, a2, a3, a4, a5, a6, a7, a8, a9⟩ := t
  obtain ⟨es', hes'⟩ : ∃ es', es' = t'.solver.ests := ⟨_, rfl⟩
  rw [← hes'] at hrest hests
  simp only at hrest hests hlen hmax
  subst hmax
  subst hrest
  have hu : ∀ (x y : Series), (Newton.update I v x y ⟨T, es', g, p, vals⟩).2 = (Newton.update I v x y ⟨T, es, g, p, vals⟩).2 ∧
      ∃ fs' fs pos vl, (Newton.update I v x y ⟨T, es', g, p, vals⟩).1 = ⟨T, fs', g, pos, vl⟩ ∧
        (Newton.update I v x y ⟨T, es, g, p, vals⟩).1 = ⟨T, fs, g, pos, vl⟩ ∧ fs'.map F = fs.map F ∧ fs.length = T.length := by
    intro x y
    unfold Newton.update
    simp only
    cases x.select vals.index with
    | error e => exact ⟨rfl, es', es, p, vals, rfl, rfl, hests, hlen⟩
    | ok xs =>
      obtain ⟨k1, k2, k3⟩ := feed_same hI T v es es' xs (y.map Prod.snd) hests
      rcases hq' : Newton.feed I T v es' xs (y.map Prod.snd) with ⟨fs', r'⟩
      rcases hq : Newton.feed I T v es xs (y.map Prod.snd) with ⟨fs, r⟩
      rw [hq', hq] at k1 k2
      rw [hq] at k3
      simp only at k1 k2 k3
      subst k1
      simp only [hq, hq']
      rcases r' with err | u
      · exact ⟨rfl, fs', fs, p, vals, rfl, rfl, k2, k3.trans hlen⟩
      · exact ⟨rfl, fs', fs, v, xs, rfl, rfl, k2, k3.trans hlen⟩
  have ht : ∀ s : Newton.State X (Fin n), (Newton.solver I lstsq).target s = s.target := fun _ => rfl
  have hup : ∀ (x y : Series) (s : Newton.State X (Fin n)), (Newton.solver I lstsq).update v x y s = Newton.update I v x y s := fun _ _ _ => rfl
  have hset : ∀ s : Newton.State X (Fin n), (Newton.solver I lstsq).setPosition v s = { s with pos := v } := fun _ => rfl
  unfold isTuned
  simp only [ht, hup, hset]
  split_ifs with hq
  · exact ⟨rfl, rfl, hests, hlen, rfl⟩
  · cases evaluate T outs with
    | error e => exact ⟨rfl, rfl, hests, hlen, rfl⟩
    | ok pv =>
      obtain ⟨x, y⟩ := pv
      simp only
      cases (rescaleValues T x).select a3.index with
      | error e => exact ⟨rfl, rfl, hests, hlen, rfl⟩
      | ok lv =>
        simp only
        cases (rescaleVariances T y).select lv.index with
        | error e => exact ⟨rfl, rfl, hests, hlen, rfl⟩
        | ok lvar =>
          simp only
          by_cases hany : (lv.any fun e => e.2.isNone) = true
          · simp only [if_pos hany]
            exact ⟨trivial, rfl, hests, hlen, rfl⟩
          · simp only [if_neg hany]
            obtain ⟨k1, fs', fs, pos, vl, k2, k3, k4, k5⟩ := hu (rescaleValues T x) (rescaleVariances T y)
            rcases hq' : Newton.update I v (rescaleValues T x) (rescaleVariances T y) ⟨T, es', g, p, vals⟩ with ⟨w', r'⟩
            rcases hq : Newton.update I v (rescaleValues T x) (rescaleVariances T y) ⟨T, es, g, p, vals⟩ with ⟨w, r⟩
            rw [hq', hq] at k1
            rw [hq'] at k2
            rw [hq] at k3
            simp only at k1 k2 k3
            subst k1 k2 k3
            cases r' with
            | error e => exact ⟨rfl, rfl, k4, k5, rfl⟩
            | ok u =>
              cases u
              split_ifs with h1 h2 h2
              · exact ⟨rfl, rfl, k4, k5, rfl⟩
              · exact absurd h1 h2
              · exact absurd h2 h1
              · exact ⟨rfl, rfl, k4, k5, rfl⟩

end Qtune.EndToEnd
