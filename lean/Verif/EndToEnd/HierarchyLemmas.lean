import Verif.EndToEnd.HierarchySpec

/-! # Helper lemmas for hierarchies of tuners -/

namespace Qtune.EndToEnd

open Qtune.Tuner Qtune.Gradient Qtune.Autotuner

variable {n m K : Nat} {X : Type}

/-- The response in units of the target of the owner. -/
noncomputable def Plan.scaled (P : Plan n m K) (k : Fin m) (v : Vec n) : ℝ := P.response k v / P.scale k

/-- The variances of parameter `k` in these units. -/
def Plan.seen (P : Plan n m K) (k : Fin m) : Set ℝ :=
  {y | ∃ v ∈ P.variances, y = v / (P.scale k * P.scale k)}

/-- Estimators in the states `G` know the gradient of parameter `k`; when they are updated with an exact
value, they are in a state of `A` and request nothing from there on. -/
structure Knows (P : Plan n m K) (I : Newton.EstI X (Fin n)) (k : Fin m) (G A : X → Prop) : Prop where
  gradient : ∀ e, G e → I.estimate e = some fun i => some (P.grad k i / P.scale k)
  update : ∀ e, G e → ∀ q, ∀ y ∈ P.seen k,
    ∃ e', I.update (volts q) (some (P.scaled k q)) (some y) e = (e', .ok ()) ∧ A e'
  weaken : ∀ e, A e → G e
  silent : ∀ e, A e → ∀ tj, I.require (P.gates (P.owner k)) tj e = (e, .ok none)

open Classical in
/-- The values that the solver of tuner `i` sees at `q`. -/
noncomputable def Plan.valuesAt (P : Plan n m K) (i : Nat) (q : Vec n) : Series :=
  List.ofFn fun k => (P.name k, if P.owner k = i then some (P.scaled k q) else none)

/-- Tuner `i` after an evaluation at `q`. -/
structure Plan.At (P : Plan n m K) (i : Nat) (q : Vec n) (t : OneTuner X n) : Prop extends P.Tuner i t where
  pos : t.solver.pos = volts q
  values : t.solver.values = P.valuesAt i q
  lastVoltage : t.lastVoltage = volts q
  lastFailed : t.lastFailed = false

theorem Plan.names_eq {P : Plan n m K} (hP : P.Valid) (i : Nat) : (P.target i).names = List.ofFn P.name := by
  unfold Plan.target Target.names
  rw [List.map_ofFn]
  congr 1
  funext k
  exact hP.row_name i k

theorem lookup_ofFn : ∀ {m' : Nat} (name : Fin m' → String) (x : Fin m' → Val), Function.Injective name →
    ∀ k, (List.ofFn fun k => (name k, x k)).lookup (name k) = some (x k) := by
  intro m' name x hinj
  induction m' with
  | zero => intro k; exact k.elim0
  | succ m' ih =>
    intro k
    rw [List.ofFn_succ]
    refine Fin.cases ?_ (fun k => ?_) k
    · simp [List.lookup_cons]
    · have hne : ¬ name k.succ = name 0 := fun h => by
        have := hinj h
        exact absurd this (Fin.succ_ne_zero k)
      rw [List.lookup_cons, beq_eq_false_iff_ne.2 hne]
      exact ih (fun k => name k.succ) (fun k => x k.succ)
        (fun a b hab => Fin.succ_injective _ (hinj hab)) k

theorem val_ofFn {m' : Nat} (name : Fin m' → String) (x : Fin m' → Val) (h : Function.Injective name)
    (k : Fin m') : Series.val (List.ofFn fun k => (name k, x k)) (name k) = x k := by
  unfold Series.val
  rw [lookup_ofFn name x h k]
  rfl

theorem index_ofFn {m' : Nat} (name : Fin m' → String) (x : Fin m' → Val) :
    Series.index (List.ofFn fun k => (name k, x k)) = List.ofFn name := by
  simp [Series.index, List.map_ofFn, Function.comp_def]

/-- A selection of all labels of which one is there. -/
theorem select_ofFn {m' : Nat} (name : Fin m' → String) (s : Series) (k : Fin m')
    (hk : s.lookup (name k) ≠ none) :
    s.select (List.ofFn name) = .ok (List.ofFn fun k => (name k, s.val (name k))) := by
  unfold Series.select
  rw [if_neg]
  · congr 1
    rw [List.map_ofFn]
    rfl
  · rintro ⟨-, hall⟩
    rw [List.all_eq_true] at hall
    have := hall (name k) ((List.mem_ofFn' _ _).2 ⟨k, rfl⟩)
    exact hk (Option.isNone_iff_eq_none.1 this)

theorem Plan.row? {P : Plan n m K} (hP : P.Valid) (i : Nat) (k : Fin m) :
    (P.target i).row? (P.name k) = some (P.row i k) := by
  have hnd : (P.target i).names.Nodup := by
    rw [P.names_eq hP, List.nodup_ofFn]
    exact hP.names
  rw [← hP.row_name i k]
  apply Newton.row?_getElem hnd (k := k.1)
  simp [Plan.target]

open Classical in
/-- The estimators of parameters with set point are updated. -/
theorem feed_mixed {E ι : Type} (I : Newton.EstI E ι) (T : Target) (v : Volt ι) :
    ∀ {m : Nat} (E₀ E₁ : Fin m → E) (name : Fin m → String) (x y : Fin m → Val) (r : Fin m → Row),
      (∀ k, T.row? (name k) = some (r k)) →
      (∀ k, (r k).desired = none → E₁ k = E₀ k) →
      (∀ k, (r k).desired ≠ none → I.update v (x k) (y k) (E₀ k) = (E₁ k, .ok ())) →
      Newton.feed I T v (List.ofFn E₀) (List.ofFn fun k => (name k, x k)) (List.ofFn y) =
        (List.ofFn E₁, .ok ()) := by
  intro m
  induction m with
  | zero => intros; simp [Newton.feed]
  | succ m ih =>
    intro E₀ E₁ name x y r hr hn hu
    simp only [List.ofFn_succ]
    unfold Newton.feed
    rw [hr 0]
    simp only
    have ih := ih (fun k => E₀ k.succ) (fun k => E₁ k.succ) (fun k => name k.succ) (fun k => x k.succ)
      (fun k => y k.succ) (fun k => r k.succ) (fun k => hr _) (fun k => hn _) (fun k => hu _)
    by_cases hd : (r 0).desired = none
    · rw [if_pos (by simpa using hd), ih, hn 0 hd]
    · rw [if_neg (by simpa using hd), hu 0 hd]
      simp only
      rw [ih]

open Classical in
/-- What the solver gets from an evaluation. -/
theorem Plan.evaluate_eq {P : Plan n m K} (hP : P.Valid) {i : Nat} (hi : i < K) (q : Vec n) :
    ∃ y : Fin m → ℝ, (∀ k, P.owner k = i → y k ∈ P.variances) ∧
      evaluate (P.target i) (P.outs i (volts q)) =
        .ok (List.ofFn fun k => (P.name k, if P.owner k = i then some (P.response k q) else none),
          List.ofFn fun k => (P.name k, if P.owner k = i then some (y k) else none)) := by
  obtain ⟨vals, vars, hcol, hk⟩ := hP.evaluators i hi q
  obtain ⟨k₀, hk₀⟩ := hP.busy i hi
  let y : Fin m → ℝ := fun k => ((vars.lookup (P.name k)).join).getD 0
  have hy : ∀ k, P.owner k = i → y k ∈ P.variances ∧ vars.lookup (P.name k) = some (some (y k)) := by
    intro k ho
    obtain ⟨z, hz, hzl⟩ := ((hk k).1 ho).2
    have : y k = z := by simp only [y, hzl, Option.join, Option.bind, id, Option.getD]
    rw [this]
    exact ⟨hz, hzl⟩
  refine ⟨y, fun k ho => (hy k ho).1, ?_⟩
  have hcol' : collect (P.outs i (volts q)) = .ok (vals, vars) := hcol
  unfold evaluate
  rw [hcol']
  simp only
  rw [P.names_eq hP, select_ofFn P.name vals k₀ (by rw [((hk k₀).1 hk₀).1]; simp)]
  simp only
  rw [select_ofFn P.name vars k₀ (by rw [(hy k₀ hk₀).2]; simp)]
  simp only
  congr 3
  · funext k
    by_cases ho : P.owner k = i
    · simp [Series.val, ((hk k).1 ho).1, ho]
    · simp [Series.val, ((hk k).2 ho).1, ho]
  · funext k
    by_cases ho : P.owner k = i
    · simp [Series.val, (hy k ho).2, ho]
    · simp [Series.val, ((hk k).2 ho).2, ho]

open Classical in
/-- The evaluation of tuner `i` at `q`, if the updates of its estimators succeed. -/
theorem Plan.evaluation_any {P : Plan n m K} (hP : P.Valid) {I : Newton.EstI X (Fin n)}
    {lstsq : Newton.Lstsq (Fin n)} {A : Fin m → X → Prop}
    {i : Nat} (hi : i < K) {E : Fin m → X} {t : OneTuner X n} (ht : P.Tuner i t)
    (hests : t.solver.ests = List.ofFn E) (q : Vec n)
    (hE : ∀ k, P.owner k = i → ∀ y ∈ P.seen k,
      ∃ e', I.update (volts q) (some (P.scaled k q)) (some y) (E k) = (e', .ok ()) ∧ A k e') :
    ∃ (E' : Fin m → X) (t' : OneTuner X n) (b : Bool),
      isTuned (Newton.solver I lstsq) (P.outs i (volts q)) (volts q) t = (t', .ok b) ∧
      (∀ k, P.owner k = i → A k (E' k)) ∧ (∀ k, P.owner k ≠ i → E' k = E k) ∧
      t'.solver.ests = List.ofFn E' ∧ P.At i q t' ∧ t'.maxStep = t.maxStep ∧ t'.maxNumber = t.maxNumber ∧
      (b = true ↔ P.Met i q) := by
  obtain ⟨y, hyv, hev⟩ := P.evaluate_eq hP hi q
  obtain ⟨k₀, hk₀⟩ := hP.busy i hi
  let T := P.target i
  let vals : Series := P.valuesAt i q
  let y' : Fin m → ℝ := fun k => y k / (P.scale k * P.scale k)
  let yv : Fin m → Val := fun k => if P.owner k = i then some (y' k) else none
  let vars : Series := List.ofFn fun k => (P.name k, yv k)
  have hfac : ∀ k, P.owner k = i → factor T (P.name k) = some (P.scale k) := by
    rintro k rfl
    unfold factor
    rw [P.row? hP]
    exact (hP.own k).2.1
  have hr1 : rescaleValues T
      (List.ofFn fun k => (P.name k, if P.owner k = i then some (P.response k q) else none)) = vals := by
    unfold rescaleValues
    rw [List.map_ofFn]
    simp only [vals, Plan.valuesAt]
    congr 1
    funext k
    simp only [Function.comp_def]
    by_cases ho : P.owner k = i
    · rw [if_pos ho, if_pos ho, hfac k ho, Val.div_some (hP.own k).2.2]
      rfl
    · rw [if_neg ho, if_neg ho, Val.div_none_left]
  have hr2 : rescaleVariances T
      (List.ofFn fun k => (P.name k, if P.owner k = i then some (y k) else none)) = vars := by
    unfold rescaleVariances
    rw [List.map_ofFn]
    simp only [vars, yv]
    congr 1
    funext k
    simp only [Function.comp_def]
    by_cases ho : P.owner k = i
    · rw [if_pos ho, if_pos ho, hfac k ho, Val.mul_some,
        Val.div_some (mul_ne_zero (hP.own k).2.2 (hP.own k).2.2)]
    · rw [if_neg ho, if_neg ho, Val.div_none_left]
  have hvalk : ∀ k, vals.val (P.name k) = if P.owner k = i then some (P.scaled k q) else none :=
    fun k => val_ofFn P.name _ hP.names k
  have hidx : vals.index = List.ofFn P.name := index_ofFn _ _
  have hidx' : vars.index = List.ofFn P.name := index_ofFn _ _
  have hsub : t.lastValues.index ⊆ List.ofFn P.name := by
    intro l hl
    obtain ⟨k, -, rfl⟩ := ht.lastIndex l hl
    exact (List.mem_ofFn' _ _).2 ⟨k, rfl⟩
  have hsel1 : vals.select t.lastValues.index = .ok (t.lastValues.index.map fun l => (l, vals.val l)) :=
    select_sub (by rw [hidx]; exact hsub)
  have hsel2 : vars.select t.lastValues.index = .ok (t.lastValues.index.map fun l => (l, vars.val l)) :=
    select_sub (by rw [hidx']; exact hsub)
  let E₁ : Fin m → X := fun k => if P.owner k = i then
    (I.update (volts q) (some (P.scaled k q)) (some (y' k)) (E k)).1 else E k
  have hup : ∀ k, P.owner k = i →
      I.update (volts q) (some (P.scaled k q)) (some (y' k)) (E k) = (E₁ k, .ok ()) ∧ A k (E₁ k) := by
    intro k ho
    obtain ⟨e', he', hA⟩ := hE k ho (y' k) ⟨y k, hyv k ho, rfl⟩
    have : E₁ k = e' := by simp only [E₁, if_pos ho, he']
    rw [this]
    exact ⟨he', hA⟩
  have hfeed : Newton.feed I T (volts q) (List.ofFn E) vals (vars.map Prod.snd) = (List.ofFn E₁, .ok ()) := by
    have hv : vars.map Prod.snd = List.ofFn yv := by
      simp [vars, List.map_ofFn, Function.comp_def]
    rw [hv]
    apply feed_mixed I T (volts q) E E₁ P.name
      (fun k => if P.owner k = i then some (P.scaled k q) else none) yv (P.row i)
    · exact P.row? hP i
    · intro k hd
      have ho : P.owner k ≠ i := by
        rintro rfl
        rw [(hP.own k).1] at hd
        cases hd
      simp only [E₁, if_neg ho]
    · intro k hd
      have ho : P.owner k = i := by
        by_contra ho
        exact hd (hP.other i k ho)
      simp only [if_pos ho, yv]
      exact (hup k ho).1
  have hupdate : Newton.update I (volts q) vals vars t.solver =
      ({ t.solver with ests := List.ofFn E₁, pos := volts q, values := vals }, .ok ()) := by
    unfold Newton.update
    have hsel : vals.select (List.ofFn P.name) = .ok vals := by
      rw [select_ofFn P.name vals k₀]
      · congr 1
        simp only [vals, Plan.valuesAt]
        congr 1
        funext k
        rw [Prod.mk.injEq]
        exact ⟨rfl, hvalk k⟩
      · have := lookup_ofFn P.name (fun k => if P.owner k = i then some (P.scaled k q) else none) hP.names k₀
        simp only [vals, Plan.valuesAt]
        rw [this]
        simp
    rw [ht.index, hsel]
    simp only
    rw [ht.target, hests]
    change (match Newton.feed I T (volts q) (List.ofFn E) vals (vars.map Prod.snd) with
      | (es, .error e) => _
      | (es, .ok ()) => _) = _
    rw [hfeed]
  let t₁ : OneTuner X n := { t with
    lastVoltage := volts q
    lastValues := t.lastValues.index.map fun l => (l, vals.val l)
    lastVariances := t.lastValues.index.map fun l => (l, vars.val l)
    lastFailed := false
    evaluatable := t.evaluatable ++ [volts q]
    solver := { t.solver with ests := List.ofFn E₁, pos := volts q, values := vals } }
  have hAt : P.At i q t₁ := by
    refine ⟨⟨ht.target, ht.gates, hidx, ?_, ht.queued⟩, rfl, rfl, rfl, rfl⟩
    have : Series.index (t.lastValues.index.map fun l => (l, vals.val l)) = t.lastValues.index :=
      Series.index_map_mk _ _
    change ∀ l ∈ Series.index (t.lastValues.index.map fun l => (l, vals.val l)), _
    rw [this]
    exact ht.lastIndex
  let tuned : Prop := ∀ r ∈ T, WithinTolerance r (vals.val r.name)
  have htuned : tuned ↔ P.Met i q := by
    have hk : ∀ k, WithinTolerance (P.row i k) (vals.val (P.row i k).name) ↔
        ∀ tol, P.owner k = i → (P.row i k).tolerance = some tol → |P.desired k - P.scaled k q| < tol := by
      intro k
      rw [hP.row_name, hvalk]
      unfold WithinTolerance
      by_cases ho : P.owner k = i
      · rw [if_pos ho]
        have hd : (P.row i k).desired = some (P.desired k) := by rw [← ho]; exact (hP.own k).1
        rw [hd]
        cases (P.row i k).tolerance with
        | none => simp
        | some tol => simp [Val.abs, ho]
      · rw [if_neg ho, hP.other i k ho]
        have hpos := hP.tolerance i k
        cases h : (P.row i k).tolerance with
        | none => simp
        | some tol => simpa [Val.abs, ho] using hpos tol h
    constructor
    · intro ht k tol ho htol
      exact (hk k).1 (ht (P.row i k) ((List.mem_ofFn' _ _).2 ⟨k, rfl⟩)) tol ho htol
    · intro ht r hr
      obtain ⟨k, rfl⟩ := (List.mem_ofFn' _ _).1 hr
      exact (hk k).2 fun tol ho htol => ht k tol ho htol
  have hrun : isTuned (Newton.solver I lstsq) (P.outs i (volts q)) (volts q) t =
      if tuned then ({ t₁ with tunedVoltages := t₁.tunedVoltages ++ [volts q] }, .ok true)
      else (t₁, .ok false) := by
    unfold isTuned
    simp only
    rw [if_neg (by simp [ht.queued])]
    have htarget : (Newton.solver I lstsq).target t.solver = P.target i := ht.target
    have hr1' : rescaleValues (P.target i) _ = vals := hr1
    have hr2' : rescaleVariances (P.target i) _ = vars := hr2
    simp only [htarget, hev, hr1', hr2']
    simp only [hsel1, Series.index_map_mk, hsel2]
    rw [if_neg]
    · have hupdate' : (Newton.solver I lstsq).update (volts q) vals vars t.solver = _ :=
        hupdate
      simp only [hupdate']
      rfl
    · simp only [List.any_map, Bool.not_eq_true, List.any_eq_false, Function.comp_def]
      intro l hl
      obtain ⟨k, ho, rfl⟩ := ht.lastIndex l hl
      rw [hvalk, if_pos ho]
      simp
  have hother : ∀ k, P.owner k ≠ i → E₁ k = E k := fun k ho => by simp only [E₁, if_neg ho]
  by_cases h : tuned
  · refine ⟨E₁, { t₁ with tunedVoltages := t₁.tunedVoltages ++ [volts q] }, true, by rw [hrun, if_pos h], fun k ho => (hup k ho).2, hother, rfl, ?_, rfl, rfl,
      by simpa using htuned.1 h⟩
    exact ⟨⟨hAt.target, hAt.gates, hAt.index, hAt.lastIndex, hAt.queued⟩, hAt.pos, hAt.values,
      hAt.lastVoltage, hAt.lastFailed⟩
  · refine ⟨E₁, t₁, false, by rw [hrun, if_neg h], fun k ho => (hup k ho).2, hother, rfl, hAt, rfl, rfl, ?_⟩
    constructor
    · intro h; cases h
    · intro h'; exact absurd (htuned.2 h') h

/-- The evaluation of tuner `i` at `q`. -/
theorem Plan.evaluation {P : Plan n m K} (hP : P.Valid) {I : Newton.EstI X (Fin n)}
    {lstsq : Newton.Lstsq (Fin n)} {G A : Fin m → X → Prop} (hI : ∀ k, Knows P I k (G k) (A k))
    {i : Nat} (hi : i < K) {E : Fin m → X} (hE : ∀ k, G k (E k)) {t : OneTuner X n} (ht : P.Tuner i t)
    (hests : t.solver.ests = List.ofFn E) (q : Vec n) :
    ∃ (E' : Fin m → X) (t' : OneTuner X n) (b : Bool),
      isTuned (Newton.solver I lstsq) (P.outs i (volts q)) (volts q) t = (t', .ok b) ∧
      (∀ k, P.owner k = i → A k (E' k)) ∧ (∀ k, P.owner k ≠ i → E' k = E k) ∧
      t'.solver.ests = List.ofFn E' ∧ P.At i q t' ∧ t'.maxStep = t.maxStep ∧ t'.maxNumber = t.maxNumber ∧
      (b = true ↔ P.Met i q) :=
  P.evaluation_any hP hi ht hests q fun k _ y hy => (hI k).update _ (hE k) q y hy

theorem Plan.scaled_add (P : Plan n m K) (k : Fin m) (q z : Vec n) :
    P.scaled k (q + z) = P.scaled k q + ∑ i, P.grad k i / P.scale k * z i := by
  unfold Plan.scaled Plan.response
  simp only [Pi.add_apply, mul_add, Finset.sum_add_distrib]
  rw [show (∑ i, P.grad k i / P.scale k * z i) = (∑ i, P.grad k i * z i) / P.scale k by
    rw [Finset.sum_div]
    exact Finset.sum_congr rfl fun i _ => by ring]
  ring

theorem ready_suggest {ι : Type} [DecidableEq ι] {m : Nat} {E : Type} {I : Newton.EstI E ι}
    {lstsq : Newton.Lstsq ι} {s : Newton.State E ι} {p : ι → ℝ} {G : Fin m → ι → ℝ} (hsize : s.target.length = m)
    (hpos : s.pos = fun i => some (p i))
    (hquiet : ∀ re ∈ s.target.zip s.ests, re.1.desired ≠ none →
      ∀ tj, I.require s.gates tj re.2 = (re.2, .ok none))
    (hgr : s.ests.map I.estimate = List.ofFn fun k => some fun i => some (G k i)) (hm : m ≠ 0)
    (tuned : List String) {x : ι → ℝ} {b : Fin m → ℝ}
    (hdiff : (s.target.map fun r => Newton.requiredDiff r.desired (s.values.val r.name)) = List.ofFn b)
    (hx : lstsq s.gates ((List.ofFn G).map fun g i => some (g i)) (List.ofFn b) = some fun i => some (x i)) :
    Newton.suggest I lstsq tuned s =
      (s, .ok fun i => if i ∈ s.gates then some (some (p i + x i)) else none) := by
  obtain ⟨T, ests, gates, pos, values⟩ := s
  simp only at hsize hpos hquiet hgr hdiff hx ⊢
  have hlen : ests.length = T.length := by
    have := congrArg List.length hgr
    simp at this
    omega
  obtain ⟨tj, htj⟩ := Newton.tunedJacobian_ok I tuned ⟨T, ests, gates, pos, values⟩ (by
    intro e he
    have : I.estimate e ∈ ests.map I.estimate := List.mem_map_of_mem he
    rw [hgr] at this
    obtain ⟨k, hk⟩ := (List.mem_ofFn' _ _).1 this
    rw [← hk]
    simp)
  have hask := Newton.ask_none I gates tj (T.zip ests) (fun re hre hd => hquiet re hre hd tj)
  have hsnd : (T.zip ests).map Prod.snd = ests := List.map_snd_zip (by omega)
  have hconcat : Newton.concat (ests.map I.estimate) =
      .ok ((List.ofFn G).map fun g i => some (g i)) := by
    have := Newton.concat_some ((List.ofFn G).map fun g i => some (g i)) (by simpa using hm)
    rw [hgr, ← this]
    simp [List.map_ofFn, Function.comp_def]
  unfold Newton.suggest
  rw [htj]
  simp only [hask, hsnd]
  unfold Newton.newtonStep
  simp only [hdiff, hconcat]
  rw [if_neg (by simp), hx]
  simp only [hpos]
  rfl

/-- Tuner `i` at `q`, on its way from the last evaluation at `q₀`. -/
structure Plan.On (P : Plan n m K) (i : Nat) (q₀ q : Vec n) (t : OneTuner X n) : Prop where
  target : t.solver.target = P.target i
  gates : t.solver.gates = P.gates i
  index : t.solver.values.index = List.ofFn P.name
  lastIndex : ∀ l ∈ t.lastValues.index, ∃ k, P.owner k = i ∧ l = P.name k
  pos : t.solver.pos = volts q
  values : t.solver.values = P.valuesAt i q₀
  lastVoltage : t.lastVoltage = volts q
  lastFailed : t.lastFailed = false

theorem Plan.At.on {P : Plan n m K} {i : Nat} {q : Vec n} {t : OneTuner X n} (h : P.At i q t) : P.On i q q t :=
  ⟨h.target, h.gates, h.index, h.lastIndex, h.pos, h.values, h.lastVoltage, h.lastFailed⟩

/-- The step `x` of tuner `i` from `q` meets its set points and keeps the parameters of the others. -/
structure Plan.Reaches (P : Plan n m K) (i : Nat) (q x : Vec n) : Prop where
  outside : ∀ j, j ∉ P.gates i → x j = 0
  own : ∀ k, P.owner k = i → P.scaled k q + ∑ j, P.grad k j / P.scale k * x j = P.desired k
  other : ∀ k, P.owner k ≠ i → ∑ j, P.grad k j / P.scale k * x j = 0

/-- The Newton step of tuner `i` after an evaluation at `q₀`. -/
theorem Plan.newton {P : Plan n m K} (hP : P.Valid) {I : Newton.EstI X (Fin n)}
    {lstsq : Newton.Lstsq (Fin n)} (hl : Newton.LstsqSpec lstsq)
    {G A : Fin m → X → Prop} (hI : ∀ k, Knows P I k (G k) (A k)) {i : Nat} (hi : i < K) (q₀ : Vec n) :
    ∃ x : Vec n, P.Reaches i q₀ x ∧ (∀ y, P.Reaches i q₀ y → len x ≤ len y) ∧
      ∀ (q : Vec n) (t : OneTuner X n) (E : Fin m → X) (tuned : List String), P.On i q₀ q t →
        t.solver.ests = List.ofFn E → (∀ k, G k (E k)) → (∀ k, P.owner k = i → A k (E k)) →
        Newton.suggest I lstsq tuned t.solver =
          (t.solver, .ok fun j => if j ∈ P.gates i then some (some ((q + x) j)) else none) := by
  classical
  obtain ⟨k₀, hk₀⟩ := hP.busy i hi
  let Gr : Fin m → Fin n → ℝ := fun k j => P.grad k j / P.scale k
  have hrank : Newton.FullRowRank (P.gates i) Gr := by
    unfold Newton.FullRowRank
    have := (hP.independent i hi).units_smul
      (fun k => Units.mk0 (P.scale k)⁻¹ (inv_ne_zero (hP.own k).2.2))
    convert this using 1
    funext k j
    simp [Gr, Units.smul_def]
    ring
  let b : Fin m → ℝ := fun k => if P.owner k = i then P.desired k - P.scaled k q₀ else 0
  obtain ⟨x, hx, hls⟩ := hl (P.gates i) (List.ofFn Gr) (List.ofFn b) (by simp)
  obtain ⟨hsol, hshort⟩ := hls.solves hrank
  let z : Vec n := fun j => if j ∈ P.gates i then x j else 0
  have hsum : ∀ (k : Fin m) (y : Vec n), (∀ j, j ∉ P.gates i → y j = 0) →
      ∑ j, P.grad k j / P.scale k * y j = Newton.change (P.gates i) (Gr k) y := by
    intro k y hy
    unfold Newton.change
    symm
    apply Finset.sum_subset (Finset.subset_univ _)
    intro j _ hj
    rw [hy j (by simpa using hj), mul_zero]
  have hzx : ∀ k, Newton.change (P.gates i) (Gr k) z = Newton.change (P.gates i) (Gr k) x := by
    intro k
    unfold Newton.change
    apply Finset.sum_congr rfl
    intro j hj
    simp only [z, if_pos (List.mem_toFinset.1 hj)]
  have hz0 : ∀ j, j ∉ P.gates i → z j = 0 := fun j hj => if_neg hj
  refine ⟨z, ⟨hz0, ?_, ?_⟩, ?_, ?_⟩
  · intro k ho
    rw [hsum k z hz0, hzx, hsol k]
    simp only [b, if_pos ho]
    ring
  · intro k ho
    rw [hsum k z hz0, hzx, hsol k]
    simp only [b, if_neg ho]
  · intro y hy
    have h1 := hshort y (fun k => by
      rw [← hsum k y hy.outside]
      by_cases ho : P.owner k = i
      · simp only [b, if_pos ho]
        linarith [hy.own k ho]
      · simp only [b, if_neg ho]
        exact hy.other k ho)
    unfold len
    apply Real.sqrt_le_sqrt
    have h2 : ∀ y : Vec n, (∀ j, j ∉ P.gates i → y j = 0) →
        ∑ j, y j ^ 2 = Newton.lengthSq (P.gates i) y := by
      intro y hy
      unfold Newton.lengthSq
      symm
      apply Finset.sum_subset (Finset.subset_univ _)
      intro j _ hj
      rw [hy j (by simpa using hj)]
      ring
    rw [h2 y hy.outside, h2 z hz0]
    refine le_trans (le_of_eq ?_) h1
    unfold Newton.lengthSq
    apply Finset.sum_congr rfl
    intro j hj
    simp only [z, if_pos (List.mem_toFinset.1 hj)]
  · intro q t E tuned ht hests hE hA
    have hval : ∀ k, t.solver.values.val (P.row i k).name =
        if P.owner k = i then some (P.scaled k q₀) else none := by
      intro k
      rw [ht.values, hP.row_name]
      exact val_ofFn P.name _ hP.names k
    have := ready_suggest (I := I) (lstsq := lstsq) (s := t.solver) (p := q) (G := Gr) (x := x) (b := b)
      (by rw [ht.target]; simp [Plan.target]) ht.pos (by
        intro re hre hd tj
        rw [ht.target, hests] at hre
        obtain ⟨j, hj, hje⟩ := List.mem_iff_getElem.1 hre
        simp [Plan.target] at hj hje
        subst hje
        have ho : P.owner ⟨j, hj⟩ = i := by
          by_contra ho
          exact hd (hP.other i _ ho)
        rw [ht.gates]
        have := (hI ⟨j, hj⟩).silent _ (hA _ ho) tj
        rw [ho] at this
        exact this) (by
        rw [hests, List.map_ofFn]
        congr 1
        funext k
        exact (hI k).gradient _ (hE k)) (by rintro rfl; exact k₀.elim0) tuned (by
        rw [ht.target, Plan.target, List.map_ofFn]
        congr 1
        funext k
        simp only [Function.comp_def, hval, b]
        by_cases ho : P.owner k = i
        · have hd : (P.row i k).desired = some (P.desired k) := by rw [← ho]; exact (hP.own k).1
          simp [ho, hd, Newton.requiredDiff]
        · simp [ho, hP.other i k ho, Newton.requiredDiff]) (by rw [ht.gates]; exact hx)
    rw [this, ht.gates]
    congr 2
    funext j
    by_cases hj : j ∈ P.gates i
    · simp [hj, z]
    · simp [hj]

/-- A part of the way. -/
theorem Plan.Reaches.part {P : Plan n m K} {i : Nat} {q x : Vec n} (h : P.Reaches i q x) (c : ℝ) :
    P.Reaches i (q + c • x) ((1 - c) • x) ∧ ∀ k, P.owner k ≠ i → P.scaled k (q + c • x) = P.scaled k q := by
  have hs : ∀ (a : ℝ) k, ∑ j, P.grad k j / P.scale k * (a • x) j = a * ∑ j, P.grad k j / P.scale k * x j := by
    intro a k
    rw [Finset.mul_sum]
    exact Finset.sum_congr rfl fun j _ => by simp; ring
  refine ⟨⟨fun j hj => by simp [h.outside j hj], fun k ho => ?_, fun k ho => ?_⟩, fun k ho => ?_⟩
  · rw [P.scaled_add, hs, hs]
    linarith [h.own k ho]
  · rw [hs, h.other k ho, mul_zero]
  · rw [P.scaled_add, hs, h.other k ho, mul_zero, add_zero]

theorem Plan.Reaches.met {P : Plan n m K} (hP : P.Valid) {i : Nat} {q x : Vec n} (h : P.Reaches i q x) :
    P.Met i (q + x) ∧ ∀ k, P.owner k ≠ i → P.scaled k (q + x) = P.scaled k q := by
  constructor
  · intro k tol ho htol
    change |P.desired k - P.scaled k (q + x)| < tol
    rw [P.scaled_add, h.own k ho, sub_self, abs_zero]
    exact hP.tolerance i k tol htol
  · intro k ho
    rw [P.scaled_add, h.other k ho, add_zero]

theorem Plan.met_of_eq {P : Plan n m K} {i j : Nat} (hij : j ≠ i) {q q' : Vec n}
    (h : ∀ k, P.owner k ≠ i → P.scaled k q' = P.scaled k q) (hm : P.Met j q) : P.Met j q' := by
  intro k tol ho htol
  have := h k (by rw [ho]; exact hij)
  change |P.desired k - P.scaled k q'| < tol
  rw [this]
  exact hm k tol ho htol

/-- The next voltages if the step is short enough. -/
theorem Plan.next_short {P : Plan n m K} {I : Newton.EstI X (Fin n)} {lstsq : Newton.Lstsq (Fin n)} {i : Nat}
    {q x : Vec n} {t : OneTuner X n} (hx : ∀ j, j ∉ P.gates i → x j = 0) (hv : t.lastVoltage = volts q)
    (hf : t.lastFailed = false) {tuned : List String}
    (hs : Newton.suggest I lstsq tuned t.solver =
      (t.solver, .ok fun j => if j ∈ P.gates i then some (some ((q + x) j)) else none))
    (hμ : ∀ M, t.maxStep = some M → len x ≤ M) :
    nextVoltages (Newton.solver I lstsq) tuned t = (t, .ok (volts (q + x))) := by
  classical
  have hs' : (Newton.solver I lstsq).suggest tuned t.solver = _ := hs
  have hstep : vsub (overlay (volts q) fun j => if j ∈ P.gates i then some (some ((q + x) j)) else none)
      (volts q) = volts x := by
    funext j
    by_cases hj : j ∈ P.gates i
    · simp [vsub, overlay, volts, hj]
    · simp [vsub, overlay, volts, hj, hx j hj]
  have hslice : slice t.maxStep t.maxNumber t.queued (volts x) = .ok (t.queued, volts x) := by
    unfold slice
    rw [norm_volts]
    cases hM : t.maxStep with
    | none => rfl
    | some M => simp only [if_neg (not_lt.2 (hμ M hM))]
  unfold nextVoltages
  simp only [hs', hf, Bool.false_eq_true, if_false, hv, hstep, hslice]
  congr 2
  · exact hv.symm
  · exact hf.symm

/-- One slice of the step. -/
theorem Plan.next_long {P : Plan n m K} {I : Newton.EstI X (Fin n)} {lstsq : Newton.Lstsq (Fin n)} {i : Nat}
    {q x : Vec n} {t : OneTuner X n} (hx : ∀ j, j ∉ P.gates i → x j = 0) (hv : t.lastVoltage = volts q)
    (hf : t.lastFailed = false) {tuned : List String}
    (hs : Newton.suggest I lstsq tuned t.solver =
      (t.solver, .ok fun j => if j ∈ P.gates i then some (some ((q + x) j)) else none))
    {M : ℝ} (hM : 0 < M) (hmax : t.maxStep = some M) (hlong : M < len x) :
    nextVoltages (Newton.solver I lstsq) tuned t =
      ({ t with queued := left (len x) M t - 1 }, .ok (volts (q + (M / len x) • x))) := by
  classical
  have hs' : (Newton.solver I lstsq).suggest tuned t.solver = _ := hs
  have hstep : vsub (overlay (volts q) fun j => if j ∈ P.gates i then some (some ((q + x) j)) else none)
      (volts q) = volts x := by
    funext j
    by_cases hj : j ∈ P.gates i
    · simp [vsub, overlay, volts, hj]
    · simp [vsub, overlay, volts, hj, hx j hj]
  have hslice : slice (some M) t.maxNumber t.queued (volts x) =
      .ok (left (len x) M t - 1, volts ((M / len x) • x)) := by
    unfold slice
    rw [norm_volts]
    simp only
    rw [if_pos hlong, if_neg (by rintro ⟨-, h0⟩; exact hM.ne' h0)]
    congr 2
  unfold nextVoltages
  simp only [hf, Bool.false_eq_true, if_false, hs', hv, hmax, hstep, hslice]
  congr 2

end Qtune.EndToEnd
