import Verif.EndToEnd.InsideModel
import Verif.EndToEnd.StoppedRun
import Verif.EndToEnd.StoppedSteps

/-! # Interruptions inside of an evaluation, when the gradients are known -/

namespace Qtune.EndToEnd

open Qtune.Tuner Qtune.Gradient Qtune.Kalman Qtune.Autotuner

variable {n m : Nat} {X : Type}

theorem feedTrace_forward {E ι : Type} (I : Newton.EstI E ι) (parts : Volt ι → Val → Val → E → List E) (T : Target) (v : Volt ι) :
    ∀ {k : Nat} (P : Fin k → E → Prop) (E₀ E₁ : Fin k → E) (name : Fin k → String) (x y : Fin k → Val) (row : Fin k → Row),
      (∀ i, T.row? (name i) = some (row i)) → (∀ i, (row i).desired ≠ none) →
      (∀ i, I.update v (x i) (y i) (E₀ i) = (E₁ i, .ok ())) → (∀ i, P i (E₀ i)) → (∀ i, P i (E₁ i)) →
      (∀ i, ∀ e ∈ parts v (x i) (y i) (E₀ i), P i e) →
      ∀ es ∈ feedTrace I parts T v (List.ofFn E₀) (List.ofFn fun i => (name i, x i)) (List.ofFn y),
        ∃ E' : Fin k → E, es = List.ofFn E' ∧ ∀ i, P i (E' i) := by
  intro k
  induction k with
  | zero =>
    intro P E₀ E₁ name x y row _ _ _ _ _ _ es hes
    simp [feedTrace] at hes
  | succ k ih =>
    intro P E₀ E₁ name x y row hrow hdes hupd h0 h1 hparts es hes
    rw [List.ofFn_succ, List.ofFn_succ, List.ofFn_succ, feedTrace] at hes
    simp only [hrow 0] at hes
    have hd : (row 0).desired.isNone = false := by
      cases h : (row 0).desired with
      | none => exact absurd h (hdes 0)
      | some _ => rfl
    simp only [hd, Bool.false_eq_true, if_false, hupd 0, List.mem_append, List.mem_map, List.mem_cons] at hes
    rcases hes with ⟨e, he, rfl⟩ | rfl | ⟨es', hes', rfl⟩
    · refine ⟨Fin.cons e fun i => E₀ i.succ, by rw [List.ofFn_succ]; rfl, fun i => ?_⟩
      refine Fin.cases ?_ (fun i => ?_) i
      · exact hparts 0 e he
      · exact h0 i.succ
    · refine ⟨Fin.cons (E₁ 0) fun i => E₀ i.succ, by rw [List.ofFn_succ]; rfl, fun i => ?_⟩
      refine Fin.cases ?_ (fun i => ?_) i
      · exact h1 0
      · exact h0 i.succ
    · obtain ⟨E', rfl, hE'⟩ := ih (fun i => P i.succ) (fun i => E₀ i.succ) (fun i => E₁ i.succ) (fun i => name i.succ) (fun i => x i.succ)
        (fun i => y i.succ) (fun i => row i.succ) (fun i => hrow i.succ) (fun i => hdes i.succ) (fun i => hupd i.succ) (fun i => h0 i.succ)
        (fun i => h1 i.succ) (fun i => hparts i.succ) es' hes'
      refine ⟨Fin.cons (E₁ 0) E', by rw [List.ofFn_succ]; rfl, fun i => ?_⟩
      refine Fin.cases ?_ (fun i => ?_) i
      · exact h1 0
      · exact hE' i

/-- The tuner is ready for an evaluation in all states inside of `is_tuned`. -/
theorem inside_evaluation {S : Setup n m} (hS : S.Sound) {μ : Val × Int} {I : Newton.EstI X (Fin n)}
    {parts : Volt (Fin n) → Val → Val → X → List X} {A₀ A : Fin m → X → Prop}
    (hup : ∀ k e, A₀ k e → ∀ q, ∀ y ∈ S.seen k, ∃ e', I.update (volts q) (some (S.scaled k q)) (some y) e = (e', .ok ()) ∧ A k e')
    (hle : ∀ k e, A k e → A₀ k e)
    (hparts : ∀ k e, A₀ k e → ∀ q, ∀ y ∈ S.seen k, ∀ e' ∈ parts (volts q) (some (S.scaled k q)) (some y) e, A₀ k e')
    {E : Fin m → X} {t : OneTuner X n} (h : Base S μ E t) (hE : ∀ k, A₀ k (E k)) (q : Vec n) :
    ∀ t' ∈ isTunedTrace I parts (S.outs (volts q)) (volts q) t, ∃ E', Base S μ E' t' ∧ ∀ k, A₀ k (E' k) := by
  classical
  obtain ⟨y, hyv, hy⟩ := hS.evaluators q
  have hy' : evaluate S.target (S.outs (volts q)) = _ := hy
  obtain ⟨hr1, hr2⟩ := Setup.rescaled hS q y
  obtain ⟨vals, hvals⟩ : ∃ vals : Series,
    vals = List.ofFn fun k => ((S.row k).name, some (S.scaled k q)) := ⟨_, rfl⟩
  obtain ⟨vars, hvars⟩ : ∃ vars : Series,
    vars = List.ofFn fun k => ((S.row k).name, some (y k / (S.scale k * S.scale k))) := ⟨_, rfl⟩
  rw [← hvals] at hr1
  rw [← hvars] at hr2
  have hidx : vals.index = S.target.names := by
    rw [S.names_eq]
    simp [hvals, Series.index, List.map_ofFn, Function.comp_def]
  have hidx' : vars.index = S.target.names := by
    rw [S.names_eq]
    simp [hvars, Series.index, List.map_ofFn, Function.comp_def]
  have hsel1 : vals.select t.lastValues.index =
      .ok (t.lastValues.index.map fun l => (l, vals.val l)) :=
    select_sub (by rw [hidx]; exact h.lastIndex)
  have hsel2 : vars.select t.lastValues.index =
      .ok (t.lastValues.index.map fun l => (l, vars.val l)) :=
    select_sub (by rw [hidx']; exact h.lastIndex)
  let y' : Fin m → ℝ := fun k => y k / (S.scale k * S.scale k)
  have hy₁ : ∀ k, y' k ∈ S.seen k := fun k => ⟨y k, hyv k, rfl⟩
  choose E₁ hE₁ hA₁ using fun k => hup k (E k) (hE k) q (y' k) (hy₁ k)
  have hv : vars.map Prod.snd = List.ofFn fun k => (some (y' k) : Val) := by
    simp [hvars, y', List.map_ofFn, Function.comp_def]
  have hdes : ∀ k, (S.row k).desired ≠ none := by
    intro k; rw [hS.desired k]; simp
  have hfeed : Newton.feed I S.target (volts q) (List.ofFn E) vals (vars.map Prod.snd) = (List.ofFn E₁, .ok ()) := by
    rw [hv, hvals]
    exact feed_forward I S.target (volts q) E E₁ (fun k => (S.row k).name)
      (fun k => some (S.scaled k q)) (fun k => some (y' k)) S.row (Setup.row? hS) hdes hE₁
  have htrace : ∀ es ∈ feedTrace I parts S.target (volts q) (List.ofFn E) vals (vars.map Prod.snd),
      ∃ E' : Fin m → X, es = List.ofFn E' ∧ ∀ k, A₀ k (E' k) := by
    rw [hv, hvals]
    exact feedTrace_forward I parts S.target (volts q) A₀ E E₁ (fun k => (S.row k).name)
      (fun k => some (S.scaled k q)) (fun k => some (y' k)) S.row (Setup.row? hS) hdes hE₁ hE (fun k => hle k _ (hA₁ k))
      fun k => hparts k (E k) (hE k) q (y' k) (hy₁ k)
  have hlast : Series.index (t.lastValues.index.map fun l => (l, vals.val l)) ⊆ S.target.names := by
    rw [Series.index_map_mk]
    exact h.lastIndex
  intro t' ht'
  unfold isTunedTrace at ht'
  rw [if_neg (by simp [h.queued]), h.target] at ht'
  simp only [hy', hr1, hr2, hsel1, Series.index_map_mk, hsel2] at ht'
  have hsel : vals.select S.target.names = .ok vals := by
    rw [hvals]
    exact Setup.select hS _
  have hupd : updateTrace I parts (volts q) vals vars t.solver =
      ((feedTrace I parts S.target (volts q) (List.ofFn E) vals (vars.map Prod.snd)).map fun es => { t.solver with ests := es }) ++
      [{ t.solver with ests := List.ofFn E₁, pos := volts q }, { t.solver with ests := List.ofFn E₁, pos := volts q, values := vals }] := by
    unfold updateTrace
    rw [h.index, hsel]
    simp only
    rw [h.target, h.ests, hfeed]
  simp only [List.mem_cons] at ht'
  rcases ht' with rfl | rfl | rfl | rfl | ht'
  · exact ⟨E, h, hE⟩
  · exact ⟨E, ⟨h.target, h.ests, h.gates, h.index, h.maxStep, h.maxNumber, h.queued, h.lastIndex⟩, hE⟩
  · exact ⟨E, ⟨h.target, h.ests, h.gates, h.index, h.maxStep, h.maxNumber, h.queued, hlast⟩, hE⟩
  · exact ⟨E, ⟨h.target, h.ests, h.gates, h.index, h.maxStep, h.maxNumber, h.queued, hlast⟩, hE⟩
  · split at ht'
    · simp only [List.mem_cons, List.not_mem_nil, or_false] at ht'
      subst ht'
      exact ⟨E, ⟨h.target, h.ests, h.gates, h.index, h.maxStep, h.maxNumber, h.queued, hlast⟩, hE⟩
    · simp only [hupd, List.mem_cons, List.mem_map, List.mem_append, List.not_mem_nil, or_false] at ht'
      rcases ht' with rfl | rfl | ⟨s, ⟨es, hes, rfl⟩ | rfl | rfl, rfl⟩
      · exact ⟨E, ⟨h.target, h.ests, h.gates, h.index, h.maxStep, h.maxNumber, h.queued, hlast⟩, hE⟩
      · exact ⟨E, ⟨h.target, h.ests, h.gates, h.index, h.maxStep, h.maxNumber, h.queued, hlast⟩, hE⟩
      · obtain ⟨E', rfl, hE'⟩ := htrace es hes
        exact ⟨E', ⟨h.target, rfl, h.gates, h.index, h.maxStep, h.maxNumber, h.queued, hlast⟩, hE'⟩
      · exact ⟨E₁, ⟨h.target, rfl, h.gates, h.index, h.maxStep, h.maxNumber, h.queued, hlast⟩, fun k => hle k _ (hA₁ k)⟩
      · exact ⟨E₁, ⟨h.target, rfl, h.gates, hidx, h.maxStep, h.maxNumber, h.queued, hlast⟩, fun k => hle k _ (hA₁ k)⟩

/-- Without a maximal step size a suggestion leaves the tuner as it is, in all states inside of it. -/
theorem inside_suggestion {S : Setup n m} (hS : S.Valid) {μ : Val × Int} (hμ : μ.1 = none) {I : Newton.EstI X (Fin n)}
    {lstsq : Newton.Lstsq (Fin n)} (hl : Newton.LstsqSpec lstsq) {E : Fin m → X} {q : Vec n} {t : OneTuner X n} (h : At S μ E q t)
    {A : Fin m → X → Prop} (hA : ∀ k, Keeps S I k (A k)) (hdone : ∀ k, A k (E k)) :
    ∀ t' ∈ nextTrace I lstsq t, t' = t := by
  obtain ⟨x, hsug, -, -, -⟩ := newton_suggestion hS hl h hA hdone
  have hsol : { t.solver with ests := List.ofFn E } = t.solver := by rw [← h.ests]
  rw [hsol] at hsug
  intro t' ht'
  unfold nextTrace at ht'
  have hmax : t.maxStep = none := h.maxStep.trans hμ
  rw [h.lastFailed, hsug, hmax] at ht'
  have heq : { t with lastFailed := false, maxStep := none } = t := by
    rw [← hmax, ← h.lastFailed]
  simp at ht'
  rcases ht' with rfl | rfl
  · rfl
  · exact heq

/-- With a maximal step size the tuner can make a suggestion in all states inside of one. -/
theorem Going.inside {S : Setup n m} (hS : S.Valid) {M : ℝ} (hM : 0 < M) {ν : Int} (hν : 1 ≤ ν) {I : Newton.EstI X (Fin n)}
    {lstsq : Newton.Lstsq (Fin n)} (hl : Newton.LstsqSpec lstsq) {A : Fin m → X → Prop} (hA : ∀ k, Keeps S I k (A k)) {t : OneTuner X n}
    (h : Going S (some M, ν) M I lstsq A t) : ∀ t' ∈ nextTrace I lstsq t, Going S (some M, ν) M I lstsq A t' := by
  have hstep : ∀ q x : Vec n, vsub (overlay (volts q) fun i => some (some ((q + x) i))) (volts q) = volts x := by
    intro q x
    funext i
    simp [vsub, overlay, volts]
  have hund : ∀ {t : OneTuner X n}, Underway S (some M, ν) M I lstsq A t → ∀ t' ∈ nextTrace I lstsq t, Going S (some M, ν) M I lstsq A t' := by
    intro t ht t' ht'
    have ht₁ := ht
    obtain ⟨E, q₀, x, p, t₀, h₀, hE, hlong, hshift, hx, hway, hq⟩ := ht
    have hs : Newton.suggest I lstsq [] t.solver = (t.solver, .ok fun i => some (some ((p + x) i))) := by
      rw [hway.solver]
      exact hshift p
    unfold nextTrace at ht'
    rw [hway.lastFailed, hs, hway.lastVoltage] at ht'
    simp only [hstep, norm_volts, hway.maxStep, h₀.maxStep, Bool.false_eq_true, if_false] at ht'
    have ht₂ : { t with lastVoltage := volts p, maxStep := some M, lastFailed := false } = t := by
      rw [← hway.lastVoltage, ← hway.lastFailed, ← (hway.maxStep.trans h₀.maxStep : t.maxStep = some M)]
    rcases List.mem_cons.1 ht' with rfl | ht'
    · exact .inr ht₁
    · rcases List.mem_cons.1 ht' with rfl | ht'
      · exact .inr (by simpa [ht₂] using ht₁)
      · split at ht'
        · rename_i hc
          have hleft := one_le_left hM hν hlong (hway.maxNumber.trans h₀.maxNumber) hq
          have hl' : left (len x) M t = min (toInt (len x / M)) t.maxNumber := by
            unfold left
            rw [if_pos hc.2.1]
          rw [hl'] at hleft
          rw [List.mem_singleton.1 ht']
          exact .inr ⟨E, q₀, x, p, t₀, h₀, hE, hlong, hshift, hx,
            ⟨hway.solver, by first | rfl | exact hway.lastVoltage, by first | rfl | exact hway.lastFailed,
              by first | exact hway.maxStep | exact h₀.maxStep.symm, hway.maxNumber, hway.lastValues⟩, by simp only; omega⟩
        · cases ht'
  rcases h with ⟨E, q, h, hE⟩ | h
  · obtain ⟨x, hsug, hshift, hx, -⟩ := newton_suggestion hS (I := I) hl h hA hE
    by_cases hlong : M < len x
    · refine hund ⟨E, q, x, q, t, h, hE, hlong, hshift, hx, ⟨?_, h.lastVoltage, h.lastFailed, rfl, rfl, rfl⟩, h.queued.ge⟩
      rw [← h.pos]
    · have hsol : { t.solver with ests := List.ofFn E } = t.solver := by rw [← h.ests]
      rw [hsol] at hsug
      intro t' ht'
      have ht₂ : t' = t := by
        unfold nextTrace at ht'
        rw [h.lastFailed, hsug, h.lastVoltage] at ht'
        simp only [hstep, norm_volts, h.maxStep, Bool.false_eq_true, if_false] at ht'
        rw [if_neg fun hc => hlong hc.1] at ht'
        have ht₃ : { t with lastVoltage := volts q, maxStep := some M, lastFailed := false } = t := by
          rw [← h.lastVoltage, ← h.lastFailed, ← show t.maxStep = some M from h.maxStep]
        simp only [List.mem_cons, List.not_mem_nil, or_false] at ht'
        rcases ht' with rfl | rfl
        · rfl
        · first | rfl | exact ht₃
      rw [ht₂]
      exact .inl ⟨E, q, h, hE⟩
  · exact hund h

/-- The state after any calls, interrupted anywhere. -/
theorem Safe.leaves {S : Setup n m} (hS : S.Valid) {μ : Val × Int} (hμ : μ.1 = none) {I : Newton.EstI X (Fin n)}
    {parts : Volt (Fin n) → Val → Val → X → List X}
    {lstsq : Newton.Lstsq (Fin n)} (hl : Newton.LstsqSpec lstsq) {A₀ A : Fin m → X → Prop} (hA : ∀ k, Keeps S I k (A k))
    (hup : ∀ k e, A₀ k e → ∀ q, ∀ y ∈ S.seen k, ∃ e', I.update (volts q) (some (S.scaled k q)) (some y) e = (e', .ok ()) ∧ A k e')
    (hle : ∀ k e, A k e → A₀ k e)
    (hparts : ∀ k e, A₀ k e → ∀ q, ∀ y ∈ S.seen k, ∀ e' ∈ parts (volts q) (some (S.scaled k q)) (some y) e, A₀ k e')
    (calls : List StoppedCall) : ∀ {s : Autotuner.State (OneTuner X n) (Volt (Fin n)) (Volt (Fin n))}, Safe S μ A₀ A s →
      Safe S μ A₀ A (leaves I parts lstsq S.outs s calls) := by
  induction calls with
  | nil => exact fun h => h
  | cons a calls ih =>
    intro s h
    refine ih ?_
    have hwhole : ∀ save, Safe S μ A₀ A (iterate (hierarchy I lstsq S.outs) save s).1 := by
      intro save
      obtain ⟨r, hr, hst, -⟩ := uninterrupted_iterate (hierarchy I lstsq S.outs) save s
      rw [hst]
      exact h.trace hS hμ (lstsq := lstsq) hl hA hup hle r (List.mem_of_getLast? hr)
    cases a with
    | whole save => exact hwhole save
    | stopped k =>
      have htr := h.trace hS hμ (lstsq := lstsq) hl hA hup hle
      simp only [leave, stopAt]
      split
      · rename_i r hr
        exact htr r (List.mem_of_getElem? hr)
      · cases hr : (iterateTrace (hierarchy I lstsq S.outs) s).getLast? with
        | none => exact h
        | some r => exact htr r (List.mem_of_getLast? hr)
    | inside k =>
      simp only [leave]
      split
      · rename_i hc
        split
        · rename_i w hw
          obtain ⟨E, q, hq, hp, hcase⟩ := h
          rcases hcase with ⟨h0, h1, hbase, hE⟩ | ⟨-, h1, -⟩ | ⟨h0, -⟩
          · rw [hq] at hw
            obtain ⟨E', hb', hE'⟩ := inside_evaluation hS.toSound hup hle hparts hbase hE q w (List.mem_of_getElem? hw)
            exact ⟨E', q, hq, hp, .inl ⟨h0, h1, hb', hE'⟩⟩
          · rw [hc.2.2] at h1
            cases h1
          · have := hc.1
            simp [isComplete, hierarchy, h0] at this
        · exact hwhole _
      · exact hwhole _
    | insideNext k =>
      simp only [leave]
      split
      · rename_i hc
        split
        · rename_i w hw
          have hs := h
          obtain ⟨E, q, hq, hp, hcase⟩ := h
          rcases hcase with ⟨-, h1, -⟩ | ⟨h0, h1, ⟨p, hAt⟩, hE⟩ | ⟨h0, -⟩
          · rw [hc.2.2] at h1
            cases h1
          · rw [inside_suggestion hS hμ hl hAt hA hE w (List.mem_of_getElem? hw)]
            exact hs
          · have := hc.1
            simp [isComplete, hierarchy, h0] at this
        · exact hwhole _
      · exact hwhole _

/-- The tuner can be asked again in all states inside of `is_tuned`, also between the parts of a long step. -/
theorem Asked.inside {S : Setup n m} (hS : S.Sound) {M : ℝ} {ν : Int} {I : Newton.EstI X (Fin n)} {lstsq : Newton.Lstsq (Fin n)}
    {parts : Volt (Fin n) → Val → Val → X → List X} {A₀ A : Fin m → X → Prop}
    (hup : ∀ k e, A₀ k e → ∀ q, ∀ y ∈ S.seen k, ∃ e', I.update (volts q) (some (S.scaled k q)) (some y) e = (e', .ok ()) ∧ A k e')
    (hle : ∀ k e, A k e → A₀ k e)
    (hparts : ∀ k e, A₀ k e → ∀ q, ∀ y ∈ S.seen k, ∀ e' ∈ parts (volts q) (some (S.scaled k q)) (some y) e, A₀ k e')
    {t : OneTuner X n} (h : Asked S (some M, ν) M I lstsq A₀ A t) (q : Vec n) :
    ∀ t' ∈ isTunedTrace I parts (S.outs (volts q)) (volts q) t, Asked S (some M, ν) M I lstsq A₀ A t' := by
  rcases h with ⟨E, hb, hE⟩ | ⟨⟨v, hund⟩, hpos⟩
  · exact fun t' ht' => .inl (inside_evaluation hS hup hle hparts hb hE q t' ht')
  · intro t' ht'
    unfold isTunedTrace at ht'
    rw [if_pos (by omega)] at ht'
    simp only [List.mem_cons, List.not_mem_nil, or_false] at ht'
    rcases ht' with rfl | rfl | rfl
    · exact .inr ⟨⟨v, hund⟩, hpos⟩
    · exact .inr ⟨⟨v, hund⟩, hpos⟩
    · obtain ⟨E, q₀, x, p, t₀, h₀, hE, hlong, hshift, hx, hway, hq⟩ := hund
      refine .inr ⟨⟨volts q, E, q₀, x, q, t₀, h₀, hE, hlong, hshift, hx,
        ⟨?_, rfl, hway.lastFailed, hway.maxStep, hway.maxNumber, hway.lastValues⟩, hq⟩, hpos⟩
      have := hway.solver
      simp only at this ⊢
      rw [this]

/-- The state after any calls, interrupted anywhere, with a maximal step size. -/
theorem SafeSteps.leaves {S : Setup n m} (hS : S.Valid) {M : ℝ} (hM : 0 < M) {ν : Int} (hν : 1 ≤ ν) {I : Newton.EstI X (Fin n)}
    {parts : Volt (Fin n) → Val → Val → X → List X}
    {lstsq : Newton.Lstsq (Fin n)} (hl : Newton.LstsqSpec lstsq) {A₀ A : Fin m → X → Prop} (hA : ∀ k, Keeps S I k (A k))
    (hup : ∀ k e, A₀ k e → ∀ q, ∀ y ∈ S.seen k, ∃ e', I.update (volts q) (some (S.scaled k q)) (some y) e = (e', .ok ()) ∧ A k e')
    (hle : ∀ k e, A k e → A₀ k e)
    (hparts : ∀ k e, A₀ k e → ∀ q, ∀ y ∈ S.seen k, ∀ e' ∈ parts (volts q) (some (S.scaled k q)) (some y) e, A₀ k e')
    (calls : List StoppedCall) : ∀ {s : Autotuner.State (OneTuner X n) (Volt (Fin n)) (Volt (Fin n))}, SafeSteps S (some M, ν) M I lstsq A₀ A s →
      SafeSteps S (some M, ν) M I lstsq A₀ A (leaves I parts lstsq S.outs s calls) := by
  induction calls with
  | nil => exact fun h => h
  | cons a calls ih =>
    intro s h
    refine ih ?_
    have htr := h.trace hS hM hν hl hA hup hle
    have hwhole : ∀ save, SafeSteps S (some M, ν) M I lstsq A₀ A (iterate (hierarchy I lstsq S.outs) save s).1 := by
      intro save
      obtain ⟨r, hr, hst, -⟩ := uninterrupted_iterate (hierarchy I lstsq S.outs) save s
      rw [hst]
      exact htr r (List.mem_of_getLast? hr)
    cases a with
    | whole save => exact hwhole save
    | stopped k =>
      simp only [leave, stopAt]
      split
      · rename_i r hr
        exact htr r (List.mem_of_getElem? hr)
      · cases hr : (iterateTrace (hierarchy I lstsq S.outs) s).getLast? with
        | none => exact h
        | some r => exact htr r (List.mem_of_getLast? hr)
    | inside k =>
      simp only [leave]
      split
      · rename_i hc
        split
        · rename_i w hw
          obtain ⟨q, hq, hp, hcase⟩ := h
          rcases hcase with ⟨h0, h1, hask⟩ | ⟨-, h1, -⟩ | ⟨h0, -⟩
          · rw [hq] at hw
            exact ⟨q, hq, hp, .inl ⟨h0, h1, hask.inside hS.toSound hup hle hparts q w (List.mem_of_getElem? hw)⟩⟩
          · rw [hc.2.2] at h1
            cases h1
          · have := hc.1
            simp [isComplete, hierarchy, h0] at this
        · exact hwhole _
      · exact hwhole _
    | insideNext k =>
      simp only [leave]
      split
      · rename_i hc
        split
        · rename_i w hw
          obtain ⟨q, hq, hp, hcase⟩ := h
          rcases hcase with ⟨-, h1, -⟩ | ⟨h0, h1, hgo⟩ | ⟨h0, -⟩
          · rw [hc.2.2] at h1
            cases h1
          · exact ⟨q, hq, hp, .inr (.inl ⟨h0, h1, hgo.inside hS hM hν hl hA w (List.mem_of_getElem? hw)⟩)⟩
          · have := hc.1
            simp [isComplete, hierarchy, h0] at this
        · exact hwhole _
      · exact hwhole _

end Qtune.EndToEnd
