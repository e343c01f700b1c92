import Verif.EndToEnd.OperatorSpec
import Verif.EndToEnd.PropsHierarchy
import Verif.EndToEnd.Descent
import Verif.Target.PropsTable

/-! # Sessions in which an operator intervenes -/

namespace Qtune.EndToEnd

open Qtune.Tuner Qtune.Gradient Qtune.Autotuner Qtune.TargetOps

variable {n m K : Nat} {X : Type}

theorem operated_iterate (I : Newton.EstI X (Fin n)) (reset : Volt (Fin n) → X → X)
    (lstsq : Newton.Lstsq (Fin n)) (outs : Nat → Volt (Fin n) → List Outcome) (save : Except PyErr Unit)
    (s : World' X n) :
    iterate (operated I reset lstsq K outs) save s = iterate (multiHierarchy I lstsq K outs) save s := rfl

theorem operated_iterates (I : Newton.EstI X (Fin n)) (reset : Volt (Fin n) → X → X)
    (lstsq : Newton.Lstsq (Fin n)) (outs : Nat → Volt (Fin n) → List Outcome) :
    ∀ (N : Nat) (s : World' X n),
      iterates (operated I reset lstsq K outs) N s = iterates (multiHierarchy I lstsq K outs) N s := by
  intro N
  induction N with
  | zero => intro s; rfl
  | succ N ih =>
    intro s
    unfold iterates
    rw [operated_iterate]
    rcases iterate (multiHierarchy I lstsq K outs) (.ok ()) s with ⟨s', ev, r⟩
    cases r with
    | error e => rfl
    | ok u => exact ih s'

theorem Plan.SameDevice.refl (P : Plan n m K) : P.SameDevice P := ⟨rfl, rfl, rfl, rfl, rfl, rfl, rfl, rfl⟩

theorem Plan.SameDevice.trans {P Q R : Plan n m K} (h : P.SameDevice Q) (h' : Q.SameDevice R) :
    P.SameDevice R :=
  ⟨h'.name.trans h.name, h'.owner.trans h.owner, h'.scale.trans h.scale, h'.grad.trans h.grad,
    h'.offset.trans h.offset, h'.gates.trans h.gates, h'.outs.trans h.outs, h'.variances.trans h.variances⟩

theorem Plan.SameDevice.scaled {P P' : Plan n m K} (h : P.SameDevice P') (k : Fin m) :
    P'.scaled k = P.scaled k := by
  funext v
  unfold Plan.scaled Plan.response
  rw [h.grad, h.offset, h.scale]

theorem Plan.SameDevice.seen {P P' : Plan n m K} (h : P.SameDevice P') (k : Fin m) :
    P'.seen k = P.seen k := by
  unfold Plan.seen
  rw [h.variances, h.scale]

theorem Plan.SameDevice.valuesAt {P P' : Plan n m K} (h : P.SameDevice P') (i : Nat) (q : Vec n) :
    P'.valuesAt i q = P.valuesAt i q := by
  unfold Plan.valuesAt
  simp only [h.name, h.owner, h.scaled]

theorem Knows.sameDevice {P P' : Plan n m K} (h : P.SameDevice P') {I : Newton.EstI X (Fin n)} {k : Fin m}
    {G A : X → Prop} (hI : Knows P I k G A) : Knows P' I k G A where
  gradient := by rw [h.grad, h.scale]; exact hI.gradient
  update := by rw [h.scaled, h.seen]; exact hI.update
  weaken := hI.weaken
  silent := by rw [h.gates, h.owner]; exact hI.silent

/-- The change of the target of one tuner. -/
theorem Plan.Retargets.target {P P' : Plan n m K} (hP : P.Valid) {cs : List (List (Column × Series))}
    (h : P.Retargets cs P') (i : Nat) : changeTarget (P.target i) (changesOf cs i) = (P'.target i, .ok ()) := by
  obtain ⟨T', hT', hn, hf⟩ := target_change_exact (P.target i) (changesOf cs i) (h.once i) (by
    intro e he l hl
    obtain ⟨k, rfl⟩ := h.known i e he l hl
    rw [P.names_eq hP]
    exact (List.mem_ofFn' _ _).2 ⟨k, rfl⟩)
  rw [hT']
  congr 1
  have hlen : T'.length = m := by rw [← hf.length_eq]; simp [Plan.target]
  apply List.ext_getElem
  · rw [hlen]; simp [Plan.target]
  · intro j hj hj'
    have hjm : j < m := by omega
    have hr : (P.target i)[j]'(by simp [Plan.target, hjm]) = P.row i ⟨j, hjm⟩ := by simp [Plan.target]
    have hr' : (P'.target i)[j]'hj' = P'.row i ⟨j, hjm⟩ := by simp [Plan.target]
    obtain ⟨h1, h2, h3⟩ := List.forall₂_iff_get.1 hf |>.2 j (by simp [Plan.target, hjm]) hj
    simp only [List.get_eq_getElem] at h1 h2 h3
    rw [hr] at h1 h2 h3
    rw [hr']
    set k : Fin m := ⟨j, hjm⟩
    have hcol : ∀ c : Column, c.get T'[j] = c.get (P'.row i k) := by
      intro c
      by_cases hc : ∃ s, (c, s) ∈ changesOf cs i ∧ P.name k ∈ s.index
      · obtain ⟨s, hs, hl⟩ := hc
        rw [h.assigned i k c s hs hl, h2 c s hs (by rw [hP.row_name]; exact hl), hP.row_name]
      · push Not at hc
        rw [h.kept i k c hc, h3 c (by rw [hP.row_name]; exact hc)]
    have hname : T'[j].name = (P'.row i k).name := by
      rw [h1, hP.row_name, h.valid.row_name, h.name]
    have := hcol .desired; have := hcol .minimum; have := hcol .maximum; have := hcol .tolerance
    have := hcol .costThreshold; have := hcol .rescaling
    generalize T'[j] = a at *
    generalize P'.row i k = b at *
    cases a; cases b
    simp_all [Column.get]

/-- The tuner with another target. -/
theorem applyFrom_ok : ∀ (cs : List (List (Column × Series))) (i : Nat) (w : Shared X n) (T : Nat → Target),
    (∀ j, (h : j < cs.length) → changeTarget (w.tuners (i + j)).solver.target cs[j] = (T (i + j), .ok ())) →
    ∃ w', applyFrom i cs w = (w', .ok ()) ∧ w'.ests = w.ests ∧
      ∀ l, w'.tuners l = if i ≤ l ∧ l < i + cs.length then
        { w.tuners l with solver := { (w.tuners l).solver with target := T l } } else w.tuners l := by
  intro cs
  induction cs with
  | nil =>
    intro i w T h
    refine ⟨w, rfl, rfl, fun l => ?_⟩
    rw [if_neg]
    simp only [List.length_nil]
    omega
  | cons c cs ih =>
    intro i w T h
    have h0 := h 0 (by simp)
    simp only [Nat.add_zero, List.getElem_cons_zero] at h0
    have hstep : ∀ l, l ≠ i → (w.setTarget i (T i)).tuners l = w.tuners l := fun l hl => by
      simp [Shared.setTarget, Function.update_of_ne hl]
    obtain ⟨w', hw', hests, htun⟩ := ih (i + 1) (w.setTarget i (T i)) T (by
      intro j hj
      rw [hstep _ (by omega)]
      have := h (j + 1) (by simp; omega)
      simp only [List.getElem_cons_succ] at this
      rw [show i + 1 + j = i + (j + 1) by omega]
      exact this)
    refine ⟨w', ?_, hests, fun l => ?_⟩
    · unfold applyFrom
      rw [h0]
      exact hw'
    · rw [htun l]
      simp only [List.length_cons]
      by_cases hl : l = i
      · subst hl
        rw [if_neg (by omega), if_pos (by omega)]
        simp [Shared.setTarget]
      · rw [hstep l hl]
        by_cases hc : i + 1 ≤ l ∧ l < i + 1 + cs.length
        · rw [if_pos hc, if_pos (by omega)]
        · rw [if_neg hc, if_neg (by omega)]

/-- Tuner `j` has been evaluated. -/
def Plan.Evaluated (P : Plan n m K) (A : Fin m → X → Prop) (E : Fin m → X) (j : Nat) (t : OneTuner X n) : Prop :=
  (∃ q₀ p u : Vec n, t.solver.pos = volts p ∧ t.solver.values = P.valuesAt j q₀ ∧ t.lastVoltage = volts u) ∧
    t.lastFailed = false ∧ ∀ k, P.owner k = j → A k (E k)

/-- What holds between two calls. -/
structure Plan.Between (P : Plan n m K) (G A : Fin m → X → Prop) (lim : Nat → Val × Int) (s : World' X n) (q : Vec n)
    (E : Fin m → X) : Prop where
  rest : P.Resting G lim s.tuners E
  expt : s.expt = volts q
  index : s.index ≤ K
  met : ∀ j < s.index, P.Met j q
  pending : ∀ v, s.pending = some v → ∃ q', v = volts q'
  failed : s.status = true → s.pending = none ∧ s.index < K ∧ P.Evaluated A E s.index (s.tuners.tuners s.index)
  first : s.status = true ∨ 0 < s.index → P.Evaluated A E 0 (s.tuners.tuners 0)

theorem Plan.Evaluated.sameDevice {P P' : Plan n m K} (h : P.SameDevice P') {A : Fin m → X → Prop}
    {E : Fin m → X} {j : Nat} {t : OneTuner X n} (ht : P.Evaluated A E j t) : P'.Evaluated A E j t := by
  obtain ⟨⟨q₀, p, u, h1, h2, h3⟩, h4, h5⟩ := ht
  exact ⟨⟨q₀, p, u, h1, by rw [h.valuesAt]; exact h2, h3⟩, h4, by rw [h.owner]; exact h5⟩

/-- The next voltages without maximal step size. -/
theorem Plan.next_free {P : Plan n m K} {I : Newton.EstI X (Fin n)} {lstsq : Newton.Lstsq (Fin n)} {i : Nat}
    {z u : Vec n} {t : OneTuner X n} (hv : t.lastVoltage = volts u) (hf : t.lastFailed = false)
    {tuned : List String} (hs : Newton.suggest I lstsq tuned t.solver =
      (t.solver, .ok fun j => if j ∈ P.gates i then some (some (z j)) else none)) (hmax : t.maxStep = none) :
    ∃ q' : Vec n, nextVoltages (Newton.solver I lstsq) tuned t = (t, .ok (volts q')) := by
  classical
  have hs' : (Newton.solver I lstsq).suggest tuned t.solver = _ := hs
  refine ⟨fun j => if j ∈ P.gates i then z j else u j, ?_⟩
  have hslice : ∀ x : Volt (Fin n), slice t.maxStep t.maxNumber t.queued x = .ok (t.queued, x) := by
    intro x
    unfold slice
    rw [hmax]
    cases norm x <;> rfl
  unfold nextVoltages
  simp only [hf, Bool.false_eq_true, if_false, hs', hslice]
  congr 2
  · exact hf.symm
  · funext j
    by_cases hj : j ∈ P.gates i
    · simp [vadd, vsub, overlay, volts, hj, hv]
    · simp [vadd, vsub, overlay, volts, hj, hv]

/-- A call of `iterate`. -/
theorem Plan.Between.iterate {P : Plan n m K} (hP : P.Valid) {I : Newton.EstI X (Fin n)}
    {lstsq : Newton.Lstsq (Fin n)} (hl : Newton.LstsqSpec lstsq) {G A : Fin m → X → Prop}
    (hI : ∀ k, Knows P I k (G k) (A k)) {lim : Nat → Val × Int} (hlim : ∀ i < K, (lim i).1 = none)
    {s : World' X n} {q : Vec n} {E : Fin m → X} (h : P.Between G A lim s q E) (hi : s.index < K) :
    ∃ s' q' E', (Autotuner.iterate (multiHierarchy I lstsq K P.outs) (.ok ()) s).1 = s' ∧
      (Autotuner.iterate (multiHierarchy I lstsq K P.outs) (.ok ()) s).2.2 = .ok () ∧
      P.Between G A lim s' q' E' ∧
      ((s.pending ≠ none ∧ s'.index = 0 ∧ s'.status = false ∧ s'.pending = none) ∨
       (s.pending = none ∧ s.status = true ∧ s'.pending ≠ none ∧ s'.index = s.index) ∨
       (s.pending = none ∧ s.status = false ∧ s'.pending = none ∧
        (s'.status = true ∨ s'.status = false ∧ s'.index = s.index + 1))) := by
  obtain ⟨w, expt, i, status, pending⟩ := s
  obtain ⟨hrest, hexpt, -, hmet, hpend, hfail, hfirst⟩ := h
  simp only at hrest hexpt hmet hpend hfail hfirst hi ⊢
  subst hexpt
  cases pending with
  | some v =>
    obtain ⟨q', rfl⟩ := hpend v rfl
    have hst : status = false := by
      cases status with
      | false => rfl
      | true => have := (hfail rfl).1; cases this
    subst hst
    refine ⟨⟨w, volts q', 0, false, none⟩, q', E, ?_, ?_, ?_, .inl ⟨by simp, rfl, rfl, rfl⟩⟩
    · simp [Autotuner.iterate, multiHierarchy, isComplete, finish, hi.ne, volts]
    · simp [Autotuner.iterate, multiHierarchy, isComplete, finish, hi.ne, volts]
    · exact ⟨hrest, rfl, by simp, by simp, by simp, by simp, by simp⟩
  | none =>
    cases status with
    | false =>
      obtain ⟨E', t', b, hev, hA, hother, hests, hAt, hm1, hm2, hb⟩ := P.evaluation hP hI (lstsq := lstsq)
        hi hrest.know (get_tuner (hrest.idle i hi).1) hrest.ests q
      have hrest' : P.Resting G lim (w.put i t') E' := by
        refine ⟨hests, fun k => ?_, fun l hl => ?_⟩
        · by_cases ho : P.owner k = i
          · exact (hI k).weaken _ (hA k ho)
          · rw [hother k ho]; exact hrest.know k
        · by_cases hli : l = i
          · subst hli
            simp only [Shared.put, Function.update_self]
            exact ⟨⟨hAt.target, hAt.gates, hAt.index, hAt.lastIndex, hAt.queued⟩, hm1.trans (hrest.idle l hl).2.1,
              hm2.trans (hrest.idle l hl).2.2⟩
          · simp only [Shared.put, Function.update_of_ne hli]
            exact hrest.idle l hl
      have hevi : P.Evaluated A E' i ((w.put i t').tuners i) := by
        simp only [Shared.put, Function.update_self]
        exact ⟨⟨q, q, q, hAt.pos, hAt.values, hAt.lastVoltage⟩, hAt.lastFailed, hA⟩
      have hev0 : P.Evaluated A E' 0 ((w.put i t').tuners 0) := by
        by_cases hi0 : i = 0
        · subst hi0; exact hevi
        · obtain ⟨h1, h2, h3⟩ := hfirst (.inr (Nat.pos_of_ne_zero hi0))
          simp only [Shared.put, Function.update_of_ne (Ne.symm hi0)]
          exact ⟨h1, h2, fun k ho => by rw [hother k (by omega)]; exact h3 k ho⟩
      refine ⟨⟨w.put i t', volts q, if b then i + 1 else i, !b, none⟩, q, E', ?_, ?_, ?_, .inr (.inr ⟨rfl, rfl, rfl, ?_⟩)⟩
      · cases b <;> simp [Autotuner.iterate, multiHierarchy, isComplete, finish, hev, hi.ne, Nat.not_le.2 hi]
      · cases b <;> simp [Autotuner.iterate, multiHierarchy, isComplete, finish, hev, hi.ne, Nat.not_le.2 hi]
      · cases b with
        | true =>
          refine ⟨hrest', rfl, hi, fun j hj => ?_, by simp, by simp, fun _ => hev0⟩
          rcases Nat.lt_succ_iff_lt_or_eq.1 (show j < i + 1 from hj) with hj | rfl
          · exact hmet j hj
          · exact hb.1 rfl
        | false => exact ⟨hrest', rfl, hi.le, hmet, by simp, fun _ => ⟨rfl, hi, hevi⟩, fun _ => hev0⟩
      · cases b <;> simp
    | true =>
      obtain ⟨-, -, ⟨q₀, p, u, hpos, hvals, hlast⟩, hfl, hact⟩ := hfail rfl
      have hidle := hrest.idle i hi
      obtain ⟨x, -, -, hs⟩ := P.newton hP hl hI hi q₀
      have hsug : ∀ tuned, Newton.suggest I lstsq tuned (w.get i).solver = _ := fun tuned =>
        hs p { w.get i with lastVoltage := volts p } E tuned
          ⟨hidle.1.target, hidle.1.gates, hidle.1.index, hidle.1.lastIndex, hpos, hvals, rfl, hfl⟩
          hrest.ests hrest.know hact
      obtain ⟨q', hnext⟩ := P.next_free (t := w.get i) hlast hfl
        (hsug ((multiHierarchy I lstsq K P.outs).tunedParams w i)) (hidle.2.1.trans (hlim i hi))
      simp only [multiHierarchy] at hnext
      refine ⟨⟨w.put i (w.get i), volts q, i, false, some (volts q')⟩, q, E, ?_, ?_, ?_,
        .inr (.inl ⟨rfl, rfl, by simp, rfl⟩)⟩
      · simp [Autotuner.iterate, multiHierarchy, isComplete, finish, hnext, hi.ne, Nat.not_le.2 hi]
      · simp [Autotuner.iterate, multiHierarchy, isComplete, finish, hnext, hi.ne, Nat.not_le.2 hi]
      · refine ⟨⟨hrest.ests, hrest.know, fun l hl => ?_⟩, rfl, hi.le, hmet, ?_, by simp, fun h0 => ?_⟩
        · by_cases hli : l = i
          · subst hli
            simp only [Shared.put, Function.update_self]
            exact ⟨get_tuner hidle.1, hidle.2⟩
          · simp only [Shared.put, Function.update_of_ne hli]
            exact hrest.idle l hl
        · rintro v hv
          cases hv
          exact ⟨q', rfl⟩
        · have hi0 : i ≠ 0 := by simpa [Nat.pos_iff_ne_zero] using h0
          simp only [Shared.put, Function.update_of_ne (Ne.symm hi0)]
          exact hfirst (.inl rfl)

/-- The loop over the tuners in `restart`. -/
theorem restartAll_rest {P : Plan n m K} {G A : Fin m → X → Prop} {reset : Volt (Fin n) → X → X}
    (hG : ∀ v k e, G k e → G k (reset v e)) (hA : ∀ v k e, A k e → A k (reset v e)) {lim : Nat → Val × Int}
    (v : Vec n) {w : Shared X n} {E : Fin m → X} (h : P.Resting G lim w E) :
    ∀ L, ∃ E', P.Resting G lim (restartAll reset (volts v) L w) E' ∧
      ∀ j, P.Evaluated A E j (w.tuners j) → P.Evaluated A E' j ((restartAll reset (volts v) L w).tuners j) := by
  intro L
  induction L with
  | zero => exact ⟨E, h, fun j hj => hj⟩
  | succ L ih =>
    obtain ⟨E', hr, hev⟩ := ih
    have hstep : restartAll reset (volts v) (L + 1) w =
        (restartAll reset (volts v) L w).put L
          (restartTuner reset (volts v) ((restartAll reset (volts v) L w).get L)) := by
      unfold restartAll
      rw [List.range_succ, List.foldl_append]
      rfl
    rw [hstep]
    generalize restartAll reset (volts v) L w = w' at hr hev
    refine ⟨fun k => reset (volts v) (E' k), ⟨?_, fun k => hG _ _ _ (hr.know k), fun l hl => ?_⟩, fun j hj => ?_⟩
    · simp only [Shared.put, restartTuner, Shared.get, hr.ests, List.map_ofFn]
      rfl
    · by_cases hlL : l = L
      · subst hlL
        simp only [Shared.put, Function.update_self]
        obtain ⟨ht, hm⟩ := hr.idle l hl
        exact ⟨⟨ht.target, ht.gates, ht.index, ht.lastIndex, ht.queued⟩, hm⟩
      · simp only [Shared.put, Function.update_of_ne hlL]
        exact hr.idle l hl
    · obtain ⟨⟨q₀, p, u, h1, h2, h3⟩, h4, h5⟩ := hev j hj
      refine ⟨?_, ?_, fun k ho => hA _ _ _ (h5 k ho)⟩
      · by_cases hjL : j = L
        · subst hjL
          simp only [Shared.put, Function.update_self]
          by_cases hn : ∀ i, (w'.tuners j).lastVoltage i = none
          · refine ⟨q₀, v, v, rfl, h2, ?_⟩
            simp only [restartTuner, Shared.get]
            exact if_pos hn
          · refine ⟨q₀, v, u, rfl, h2, ?_⟩
            simp only [restartTuner, Shared.get]
            exact (if_neg hn).trans h3
        · simp only [Shared.put, Function.update_of_ne hjL]
          exact ⟨q₀, p, u, h1, h2, h3⟩
      · by_cases hjL : j = L
        · subst hjL
          simp only [Shared.put, Function.update_self]
          exact h4
        · simp only [Shared.put, Function.update_of_ne hjL]
          exact h4

theorem Plan.Between.restart {P : Plan n m K} {I : Newton.EstI X (Fin n)} {lstsq : Newton.Lstsq (Fin n)}
    {G A : Fin m → X → Prop} {reset : Volt (Fin n) → X → X} {outs : Nat → Volt (Fin n) → List Outcome}
    (hG : ∀ v k e, G k e → G k (reset v e)) (hA : ∀ v k e, A k e → A k (reset v e)) {lim : Nat → Val × Int}
    {s : World' X n} {q : Vec n} {E : Fin m → X} (h : P.Between G A lim s q E) (v : Vec n) :
    (Autotuner.restart (operated I reset lstsq K outs) { s with expt := volts v }).2.2 = .ok () ∧
    ∃ E', P.Between G A lim (Autotuner.restart (operated I reset lstsq K outs) { s with expt := volts v }).1 v E' := by
  refine ⟨rfl, ?_⟩
  obtain ⟨E', hr, hev⟩ := restartAll_rest hG hA v h.rest K
  refine ⟨E', hr, rfl, Nat.zero_le _, by simp [Autotuner.restart], by simp [Autotuner.restart], fun hs => ?_, fun hs => ?_⟩
  · refine ⟨rfl, Nat.zero_lt_of_lt (h.failed hs).2.1, hev 0 (h.first (.inl hs))⟩
  · rcases hs with hs | hs
    · exact hev 0 (h.first (.inl hs))
    · exact absurd hs (by simp [Autotuner.restart])

theorem Plan.Between.changeTargets {P P' : Plan n m K} (hP : P.Valid) {I : Newton.EstI X (Fin n)}
    {lstsq : Newton.Lstsq (Fin n)} {G A : Fin m → X → Prop} {reset : Volt (Fin n) → X → X}
    {outs : Nat → Volt (Fin n) → List Outcome} {lim : Nat → Val × Int}
    {s : World' X n} {q : Vec n} {E : Fin m → X} (h : P.Between G A lim s q E)
    {cs : List (List (Column × Series))} (hc : P.Retargets cs P') :
    (Autotuner.changeTargets (operated I reset lstsq K outs) cs s).2.2 = .ok () ∧
    P'.Between G A lim (Autotuner.changeTargets (operated I reset lstsq K outs) cs s).1 q E := by
  have hsame := hc.toSameDevice
  obtain ⟨w', hw', hests, htun⟩ := applyFrom_ok cs 0 s.tuners P'.target (by
    intro j hj
    rw [Nat.zero_add, (h.rest.idle j (lt_of_lt_of_le hj hc.length)).1.target]
    have := hc.target hP j
    unfold changesOf at this
    rw [List.getElem?_eq_getElem hj] at this
    exact this)
  have happly : (operated I reset lstsq K outs).applyTargets cs s.tuners = (w', .ok ()) := hw'
  have hlen : ¬ (operated I reset lstsq K outs).len < (operated I reset lstsq K outs).nChanges cs :=
    Nat.not_lt.2 hc.length
  have htarget : ∀ l < K, (w'.tuners l).solver.target = P'.target l := by
    intro l hl
    rw [htun l]
    split_ifs with hlt
    · rfl
    · rw [(h.rest.idle l hl).1.target]
      have := hc.target hP l
      unfold changesOf at this
      rw [List.getElem?_eq_none (by omega)] at this
      exact congrArg Prod.fst this
  have hsolver : ∀ l, (w'.tuners l).solver = { (s.tuners.tuners l).solver with target := (w'.tuners l).solver.target } ∧
      w'.tuners l = { s.tuners.tuners l with solver := (w'.tuners l).solver } := by
    intro l
    rw [htun l]
    split_ifs <;> exact ⟨rfl, rfl⟩
  have hev : ∀ j, P.Evaluated A E j (s.tuners.tuners j) → P'.Evaluated A E j (w'.tuners j) := by
    intro j hj
    apply Plan.Evaluated.sameDevice hsame
    obtain ⟨h1, h2, h3⟩ := hj
    rw [(hsolver j).2, (hsolver j).1]
    exact ⟨h1, h2, h3⟩
  have hrun : Autotuner.changeTargets (operated I reset lstsq K outs) cs s =
      ({ s with tuners := w', index := 0, pending := none }, [.targetsChanged true], .ok ()) := by
    unfold Autotuner.changeTargets
    rw [if_neg hlen, happly]
  rw [hrun]
  refine ⟨rfl, ⟨hests.trans h.rest.ests, h.rest.know, fun l hl => ?_⟩, h.expt, Nat.zero_le _, by simp, by simp,
    fun hs => ?_, fun hs => ?_⟩
  · obtain ⟨ht, hm⟩ := h.rest.idle l hl
    have htl := htarget l hl
    change P'.Idle lim l (w'.tuners l)
    rw [(hsolver l).2]
    refine ⟨⟨htl, ?_, ?_, ?_, ht.queued⟩, hm⟩
    · simp only
      rw [(hsolver l).1, hsame.gates]
      exact ht.gates
    · simp only
      rw [(hsolver l).1, hsame.name]
      exact ht.index
    · rw [hsame.owner, hsame.name]
      exact ht.lastIndex
  · exact ⟨rfl, Nat.zero_lt_of_lt (h.failed hs).2.1, hev 0 (h.first (.inl hs))⟩
  · rcases hs with hs | hs
    · exact hev 0 (h.first (.inl hs))
    · exact absurd hs (by simp)

/-- The tuning is complete within `N` calls, the voltages then meet the set points of all tuners. -/
theorem Plan.Between.finishes {P : Plan n m K} (hP : P.Valid) {I : Newton.EstI X (Fin n)}
    {lstsq : Newton.Lstsq (Fin n)} (hl : Newton.LstsqSpec lstsq) {G A : Fin m → X → Prop}
    (hI : ∀ k, Knows P I k (G k) (A k)) {lim : Nat → Val × Int} (hlim : ∀ i < K, (lim i).1 = none)
    {s : World' X n} {q : Vec n} {E : Fin m → X} (h : P.Between G A lim s q E) :
    P.CompletesWithin I lstsq (K + 2 + (4 * K + K * (K - 1) / 2)) s := by
  have later : ∀ (N : Nat) (s s' : World' X n), (Autotuner.iterate (multiHierarchy I lstsq K P.outs) (.ok ()) s).1 = s' →
      (Autotuner.iterate (multiHierarchy I lstsq K P.outs) (.ok ()) s).2.2 = .ok () →
      P.CompletesWithin I lstsq N s' → P.CompletesWithin I lstsq (N + 1) s := by
    rintro N s s' h1 h2 ⟨M, hM, s'', hit, hc⟩
    refine ⟨1 + M, by omega, s'', ?_, hc⟩
    rw [iterates_add _ 1 M _ _ (iterates_one h1 h2)]
    exact hit
  have hpend : ∀ (s : World' X n) (q : Vec n) (E : Fin m → X), P.Between G A lim s q E → s.index < K →
      s.pending ≠ none → P.CompletesWithin I lstsq (4 * K + K * (K - 1) / 2 + 1) s := by
    intro s q E h hi hp
    obtain ⟨s', q', E', h1, h2, hb, hcase⟩ := h.iterate hP hl hI hlim hi
    refine later _ s s' h1 h2 ?_
    rcases hcase with ⟨-, h3, h4, h5⟩ | ⟨h3, -⟩ | ⟨h3, -⟩
    · obtain ⟨w', expt, i, status, pending⟩ := s'
      have hexpt : expt = volts q' := hb.expt
      simp only at h3 h4 h5
      subst h3 h4 h5 hexpt
      exact (completes hP hl hI q' hb.rest.ests hb.rest.know (fun i hi => (hb.rest.idle i hi).1)
        (fun i hi => .inl ((hb.rest.idle i hi).2.1.trans (hlim i hi)))).1
        fun i hi => (hb.rest.idle i hi).2.1.trans (hlim i hi)
    · exact absurd h3 hp
    · exact absurd h3 hp
  have hstat : ∀ (s : World' X n) (q : Vec n) (E : Fin m → X), P.Between G A lim s q E → s.index < K →
      s.status = true → P.CompletesWithin I lstsq (4 * K + K * (K - 1) / 2 + 1 + 1) s := by
    intro s q E h hi hs
    obtain ⟨s', q', E', h1, h2, hb, hcase⟩ := h.iterate hP hl hI hlim hi
    have hp := (h.failed hs).1
    refine later _ s s' h1 h2 ?_
    rcases hcase with ⟨h3, -⟩ | ⟨-, -, h3, h4⟩ | ⟨-, h3, -⟩
    · exact absurd hp h3
    · exact hpend s' q' E' hb (by omega) h3
    · rw [hs] at h3; cases h3
  have hclimb : ∀ (d : Nat) (s : World' X n) (q : Vec n) (E : Fin m → X), P.Between G A lim s q E →
      s.index + d = K → P.CompletesWithin I lstsq (d + 2 + (4 * K + K * (K - 1) / 2)) s := by
    intro d
    induction d with
    | zero =>
      intro s q E h hd
      refine ⟨0, by omega, s, rfl, by simpa [isComplete, multiHierarchy] using hd, q, h.expt, ?_⟩
      exact fun i hi => h.met i (by omega)
    | succ d ih =>
      intro s q E h hd
      have mono : ∀ {a b : Nat}, a ≤ b → P.CompletesWithin I lstsq a s → P.CompletesWithin I lstsq b s := by
        rintro a b hab ⟨M, hM, hc⟩
        exact ⟨M, hM.trans hab, hc⟩
      by_cases hp : s.pending = none
      · by_cases hs : s.status = true
        · exact mono (by omega) (hstat s q E h (by omega) hs)
        · obtain ⟨s', q', E', h1, h2, hb, hcase⟩ := h.iterate hP hl hI hlim (by omega)
          rw [show d + 1 + 2 + (4 * K + K * (K - 1) / 2) = d + 2 + (4 * K + K * (K - 1) / 2) + 1 by omega]
          refine later _ s s' h1 h2 ?_
          rcases hcase with ⟨h3, -⟩ | ⟨-, h3, -⟩ | ⟨-, -, hp', h3 | ⟨h3, h4⟩⟩
          · exact absurd hp h3
          · exact absurd h3 hs
          · obtain ⟨M, hM, hc⟩ := hstat s' q' E' hb (hb.failed h3).2.1 h3
            exact ⟨M, by omega, hc⟩
          · exact ih s' q' E' hb (by omega)
      · exact mono (by omega) (hpend s q E h (by omega) hp)
  obtain ⟨M, hM, hc⟩ := hclimb (K - s.index) s q E h (by have := h.index; omega)
  exact ⟨M, by omega, hc⟩

/-- The invariant holds in every state of a session. -/
theorem Session.between {P₀ : Plan n m K} (hP : P₀.Valid) {I : Newton.EstI X (Fin n)}
    {lstsq : Newton.Lstsq (Fin n)} (hl : Newton.LstsqSpec lstsq) {G A : Fin m → X → Prop}
    (hI : ∀ k, Knows P₀ I k (G k) (A k)) {reset : Volt (Fin n) → X → X}
    (hG : ∀ v k e, G k e → G k (reset v e)) (hA : ∀ v k e, A k e → A k (reset v e))
    {lim : Nat → Val × Int} (hlim : ∀ i < K, (lim i).1 = none) {s₀ : World' X n} {q₀ : Vec n} {E₀ : Fin m → X}
    (h₀ : P₀.Between G A lim s₀ q₀ E₀) {P : Plan n m K} {s : World' X n}
    (h : Session I reset lstsq P₀ s₀ P s) :
    P.Valid ∧ P₀.SameDevice P ∧ ∃ q E, P.Between G A lim s q E := by
  induction h with
  | start => exact ⟨hP, .refl _, q₀, E₀, h₀⟩
  | @iterate P s _ ih =>
    obtain ⟨hv, hsame, q, E, hb⟩ := ih
    refine ⟨hv, hsame, ?_⟩
    rw [operated_iterate, ← hsame.outs]
    by_cases hi : s.index = K
    · have : Autotuner.iterate (multiHierarchy I lstsq K P.outs) (.ok ()) s = (s, [], .error errComplete) := by
        simp [Autotuner.iterate, multiHierarchy, isComplete, hi]
      rw [this]
      exact ⟨q, E, hb⟩
    · obtain ⟨s', q', E', h1, -, hb', -⟩ := hb.iterate hv hl (fun k => (hI k).sameDevice hsame) hlim
        (lt_of_le_of_ne hb.index hi)
      rw [h1]
      exact ⟨q', E', hb'⟩
  | @restart P s v _ ih =>
    obtain ⟨hv, hsame, q, E, hb⟩ := ih
    obtain ⟨E', hb'⟩ := (hb.restart (I := I) (lstsq := lstsq) (outs := P₀.outs) hG hA v).2
    exact ⟨hv, hsame, v, E', hb'⟩
  | @changeTargets P P' s cs _ hc ih =>
    obtain ⟨hv, hsame, q, E, hb⟩ := ih
    exact ⟨hc.valid, hsame.trans hc.toSameDevice, q, E,
      (hb.changeTargets (I := I) (lstsq := lstsq) (reset := reset) (outs := P₀.outs) hv hc).2⟩

end Qtune.EndToEnd
