import Verif.EndToEnd.Lemmas

/-! # Phases of the tuning of an affine device -/

namespace Qtune.EndToEnd

open Qtune.Tuner Qtune.Gradient

variable {n m : Nat} {X : Type}

/-- Voltages without NaN. -/
def volts (q : Vec n) : Volt (Fin n) := fun i => some (q i)

/-- The values of the solver at `q`. -/
noncomputable def Setup.valuesAt (S : Setup n m) (q : Vec n) : Series :=
  List.ofFn fun k => ((S.row k).name, some (S.scaled k q))

/-- The tuner between two calls, with the given estimators. -/
structure Base (S : Setup n m) (μ : Val × Int) (E : Fin m → X) (t : OneTuner X n) : Prop where
  target : t.solver.target = S.target
  ests : t.solver.ests = List.ofFn E
  gates : t.solver.gates = S.gates
  index : t.solver.values.index = S.target.names
  maxStep : t.maxStep = μ.1
  maxNumber : t.maxNumber = μ.2
  queued : t.queued = 0
  lastIndex : t.lastValues.index ⊆ S.target.names

/-- The tuner after an evaluation at `q` that did not meet the set points. -/
structure At (S : Setup n m) (μ : Val × Int) (E : Fin m → X) (q : Vec n) (t : OneTuner X n) : Prop
    extends Base S μ E t where
  pos : t.solver.pos = volts q
  values : t.solver.values = S.valuesAt q
  lastVoltage : t.lastVoltage = volts q
  lastFailed : t.lastFailed = false

theorem select_sub {s : Series} {labels : List String} (h : labels ⊆ s.index) :
    Series.select s labels = .ok (labels.map fun l => (l, s.val l)) := by
  unfold Series.select
  rw [if_neg]
  rintro ⟨hne, hall⟩
  rw [List.all_eq_true] at hall
  obtain ⟨l, hl⟩ := List.exists_mem_of_ne_nil _ hne
  have h1 := hall l hl
  have h2 := h hl
  have key : ∀ (s : Series), (s.lookup l).isNone → l ∉ s.index := by
    intro s
    induction s with
    | nil => simp [Series.index]
    | cons a s ih =>
      obtain ⟨l', x'⟩ := a
      intro hn
      rw [List.lookup_cons] at hn
      by_cases hl : l = l'
      · subst hl; simp at hn
      · rw [beq_eq_false_iff_ne.2 hl] at hn
        simp only [Series.index, List.map_cons, List.mem_cons, not_or]
        exact ⟨hl, ih hn⟩
  exact key s h1 h2

/-- The evaluation at `q`: all estimators are updated; the result is true iff all set points are
met. -/
theorem evaluation {S : Setup n m} (hS : S.Sound) {μ : Val × Int} {I : Newton.EstI X (Fin n)} {lstsq : Newton.Lstsq (Fin n)}
    {E : Fin m → X} {t : OneTuner X n} (h : Base S μ E t) (q : Vec n)
    (hupd : ∀ k, ∀ y ∈ S.seen k, ∃ e', I.update (volts q) (some (S.scaled k q)) (some y) (E k) = (e', .ok ())) :
    ∃ (y : Fin m → ℝ) (t' : OneTuner X n) (b : Bool),
      isTuned (Newton.solver I lstsq) (S.outs (volts q)) (volts q) t = (t', .ok b) ∧
      (∀ k, y k ∈ S.seen k) ∧
      At S μ (fun k => (I.update (volts q) (some (S.scaled k q)) (some (y k)) (E k)).1) q t' ∧
      (b = true ↔ ∀ k, ∀ tol, (S.row k).tolerance = some tol →
        |S.desired k - S.scaled k q| < tol) := by
  classical
  obtain ⟨y, hyv, hy⟩ := hS.evaluators q
  have hy' : evaluate S.target (S.outs (volts q)) = _ := hy
  obtain ⟨hr1, hr2⟩ := Setup.rescaled hS q y
  obtain ⟨vals, hvals⟩ : ∃ vals : Series,
    vals = List.ofFn fun k => ((S.row k).name, some (S.scaled k q)) := ⟨_, rfl⟩
  obtain ⟨vars, hvars⟩ : ∃ vars : Series,
    vars = List.ofFn fun k => ((S.row k).name, some (y k / (S.scale k * S.scale k))) := ⟨_, rfl⟩
  rw [← hvals] at hr1
  rw [← hvars] at hr2
  have hvalk : ∀ k, vals.val (S.row k).name = some (S.scaled k q) := by
    intro k
    rw [hvals]
    exact Setup.val_ofFn hS (fun k => some (S.scaled k q)) k
  have hidx : vals.index = S.target.names := by
    rw [S.names_eq]
    simp [hvals, Series.index, List.map_ofFn, Function.comp_def]
  have hidx' : vars.index = S.target.names := by
    rw [S.names_eq]
    simp [hvars, Series.index, List.map_ofFn, Function.comp_def]
  have hsel1 : vals.select t.lastValues.index =
      .ok (t.lastValues.index.map fun l => (l, vals.val l)) :=
    select_sub (by rw [hidx]; exact h.lastIndex)
  have hsel2 : vars.select t.lastValues.index =
      .ok (t.lastValues.index.map fun l => (l, vars.val l)) :=
    select_sub (by rw [hidx']; exact h.lastIndex)
  have hval : ∀ l ∈ S.target.names, (vals.val l).isSome := by
    intro l hl
    rw [S.names_eq] at hl
    obtain ⟨k, rfl⟩ := (List.mem_ofFn' _ _).1 hl
    change (vals.val (S.row k).name).isSome
    rw [hvalk]
    rfl
  let y' : Fin m → ℝ := fun k => y k / (S.scale k * S.scale k)
  let E₁ : Fin m → X := fun k => (I.update (volts q) (some (S.scaled k q)) (some (y' k)) (E k)).1
  have hfeed : Newton.feed I S.target (volts q) (List.ofFn E) vals
      (vars.map Prod.snd) = (List.ofFn E₁, .ok ()) := by
    have hv : vars.map Prod.snd = List.ofFn fun k => (some (y' k) : Val) := by
      simp [hvars, y', List.map_ofFn, Function.comp_def]
    rw [hv, hvals]
    apply feed_forward I S.target (volts q) E E₁ (fun k => (S.row k).name)
      (fun k => some (S.scaled k q)) (fun k => some (y' k)) S.row
    · exact Setup.row? hS
    · intro k; rw [hS.desired k]; simp
    · intro k
      obtain ⟨e', he'⟩ := hupd k (y' k) ⟨y k, hyv k, rfl⟩
      simp only [E₁, he']
  have hupdate : Newton.update I (volts q) vals vars t.solver =
      ({ t.solver with ests := List.ofFn E₁, pos := volts q, values := vals }, .ok ()) := by
    unfold Newton.update
    have hsel : vals.select S.target.names = .ok vals := by
      rw [hvals]
      exact Setup.select hS _
    rw [h.index, hsel]
    simp only
    rw [h.target, h.ests, hfeed]
  let t₁ : OneTuner X n := { t with
    lastVoltage := volts q
    lastValues := t.lastValues.index.map fun l => (l, vals.val l)
    lastVariances := t.lastValues.index.map fun l => (l, vars.val l)
    lastFailed := false
    evaluatable := t.evaluatable ++ [volts q]
    solver := { t.solver with ests := List.ofFn E₁, pos := volts q, values := vals } }
  have hAt : At S μ E₁ q t₁ := by
    refine ⟨⟨h.target, rfl, h.gates, hidx, h.maxStep, h.maxNumber, h.queued, ?_⟩, rfl, hvals, rfl, rfl⟩
    have : Series.index (t.lastValues.index.map fun l => (l, vals.val l)) = t.lastValues.index :=
      Series.index_map_mk _ _
    change Series.index (t.lastValues.index.map fun l => (l, vals.val l)) ⊆ _
    rw [this]
    exact h.lastIndex
  let tuned : Prop := ∀ r ∈ S.target, WithinTolerance r (vals.val r.name)
  have htuned : tuned ↔ ∀ k, ∀ tol, (S.row k).tolerance = some tol →
      |S.desired k - S.scaled k q| < tol := by
    have hk : ∀ k, WithinTolerance (S.row k) (vals.val (S.row k).name) ↔
        ∀ tol, (S.row k).tolerance = some tol → |S.desired k - S.scaled k q| < tol := by
      intro k
      rw [hvalk]
      unfold WithinTolerance
      rw [hS.desired k]
      cases (S.row k).tolerance with
      | none => simp
      | some tol => simp [Val.abs]
    constructor
    · intro ht k
      exact (hk k).1 (ht (S.row k) ((List.mem_ofFn' _ _).2 ⟨k, rfl⟩))
    · intro ht r hr
      obtain ⟨k, rfl⟩ := (List.mem_ofFn' _ _).1 hr
      exact (hk k).2 (ht k)
  have hrun : isTuned (Newton.solver I lstsq) (S.outs (volts q)) (volts q) t =
      if tuned then ({ t₁ with tunedVoltages := t₁.tunedVoltages ++ [volts q] }, .ok true)
      else (t₁, .ok false) := by
    unfold isTuned
    simp only
    rw [if_neg (by simp [h.queued])]
    have htarget : (Newton.solver I lstsq).target t.solver = S.target := h.target
    simp only [htarget, hy', hr1, hr2]
    simp only [hsel1, Series.index_map_mk, hsel2]
    rw [if_neg]
    · have hupdate' : (Newton.solver I lstsq).update (volts q) vals vars t.solver = _ :=
        hupdate
      simp only [hupdate']
      rfl
    · simp only [List.any_map, Bool.not_eq_true, List.any_eq_false, Function.comp_def]
      intro l hl
      have := hval l (h.lastIndex hl)
      simpa [Option.isSome_iff_ne_none] using this
  by_cases ht : tuned
  · refine ⟨y', _, true, by rw [hrun, if_pos ht], fun k => ⟨y k, hyv k, rfl⟩, ?_, by simpa using htuned.1 ht⟩
    exact ⟨⟨hAt.target, hAt.ests, hAt.gates, hAt.index, hAt.maxStep, hAt.maxNumber, hAt.queued, hAt.lastIndex⟩,
      hAt.pos, hAt.values, hAt.lastVoltage, hAt.lastFailed⟩
  · refine ⟨y', _, false, by rw [hrun, if_neg ht], fun k => ⟨y k, hyv k, rfl⟩, hAt, ?_⟩
    constructor
    · intro h; cases h
    · intro h'; exact absurd (htuned.2 h') ht

theorem norm_volts (x : Vec n) : Tuner.norm (volts x) = some (len x) := by
  unfold Tuner.norm len
  rw [if_pos (fun i => by rfl)]
  rfl

/-- The next voltages when the solver suggests `q'` on all gates. -/
theorem suggestion {S : Setup n m} {μ : Val × Int} {I : Newton.EstI X (Fin n)} {lstsq : Newton.Lstsq (Fin n)}
    {E E' : Fin m → X} {t : OneTuner X n} {q q' : Vec n} (h : At S μ E q t)
    (hμ : ∀ M, μ.1 = some M → len (q' - q) ≤ M)
    (hs : Newton.suggest I lstsq [] t.solver =
      ({ t.solver with ests := List.ofFn E' }, .ok fun i => some (some (q' i)))) :
    ∃ t', nextVoltages (Newton.solver I lstsq) [] t = (t', .ok (volts q')) ∧
      Base S μ E' t' := by
  refine ⟨{ t with solver := { t.solver with ests := List.ofFn E' } }, ?_, ?_⟩
  · unfold nextVoltages
    rw [h.lastFailed]
    have hs' : (Newton.solver I lstsq).suggest [] t.solver = _ := hs
    have hstep : vsub (overlay (volts q) fun i => some (some (q' i))) (volts q) = volts (q' - q) := by
      funext i
      simp [vsub, overlay, volts]
    have hslice : slice μ.1 t.maxNumber t.queued (volts (q' - q)) = .ok (t.queued, volts (q' - q)) := by
      unfold slice
      rw [norm_volts]
      cases hM : μ.1 with
      | none => rfl
      | some M => simp only [if_neg (not_lt.2 (hμ M hM))]
    simp only [hs', h.maxStep, Bool.false_eq_true, if_false, h.lastVoltage, hstep, hslice]
    congr 2
    funext i
    simp [vadd, volts]
  · exact ⟨h.target, rfl, h.gates, h.index, h.maxStep, h.maxNumber, h.queued, h.lastIndex⟩

/-- While measurements are missing the first estimator requests the next one. -/
theorem request_phase {S : Setup n m} (hS : S.Sound) {μ : Val × Int} {B : ℝ} {η : Option ℝ} {orth : Orth n} (ho : OrthSpec orth)
    {lstsq : Newton.Lstsq (Fin n)} {E : Fin m → FD n} {q c : Vec n} {t : OneTuner (FD n) n} (h : At S μ E q t)
    {k : Nat} {d : Fin k → Vec n} {f : Fin m → Vec n → ℝ} (hcol : ∀ j, Col B η (f j) c d (E j)) (hk : k < n)
    (hli : LinearIndependent ℝ d) (hsp : Spread η d) (hμ : ∀ M, μ.1 = some M → 2 * B ≤ M) (hq : len (q - c) ≤ B) :
    ∃ x E', LinearIndependent ℝ (Fin.snoc d x : Fin (k + 1) → Vec n) ∧
      Spread η (Fin.snoc d x : Fin (k + 1) → Vec n) ∧ len x ≤ B ∧
      (∀ j, Col B η (f j) c d (E' j)) ∧
      ∃ t', nextVoltages (Newton.solver (fdI orth) lstsq) [] t = (t', .ok (volts (c + x))) ∧
        Base S μ E' t' := by
  cases m with
  | zero => exact absurd rfl hS.nonempty
  | succ m =>
    obtain ⟨x, e', hx, hxs, hlen, hcol', hreq⟩ :=
      (hcol 0).request ho hS.gates_nodup hS.gates_all hk hli hsp
    refine ⟨x, Fin.cons e' fun j => E j.succ, hx, hxs, hlen, ?_, ?_⟩
    · intro j
      refine Fin.cases ?_ (fun j => ?_) j
      · simpa using hcol'
      · simpa using hcol j.succ
    · apply suggestion h
      · intro M hM
        have h1 : len (c + x - q) ≤ len (c - q) + len x := by
          have : c + x - q = (c - q) + x := by abel
          rw [this]
          exact len_add _ _
        rw [len_sub_comm c q] at h1
        linarith [hμ M hM]
      have htj : Newton.tunedJacobian (fdI orth) [] t.solver = .ok none :=
        (Newton.tuned_jacobian_rows (fdI orth) [] t.solver).1 (by simp)
      have hfd : (fdI orth).require t.solver.gates none (E 0) =
          (e', .ok (some fun i => some (some ((c + x) i)))) := by
        rw [h.gates]
        simp [fdI, hreq, Except.map]
      have hzip : t.solver.target.zip t.solver.ests =
          [] ++ (S.row 0, E 0) :: (List.ofFn fun j : Fin m => S.row j.succ).zip
            (List.ofFn fun j : Fin m => E j.succ) := by
        rw [h.target, h.ests]
        simp [Setup.target, List.ofFn_succ]
      have := Newton.requests_have_priority (fdI orth) lstsq [] t.solver none htj [] _ _ _ hzip
        (by simp) (by rw [hS.desired 0]; simp) (fun i => some (some ((c + x) i)))
        (by rw [hfd]) ⟨⟨0, by omega⟩, by simp⟩
      rw [this, hfd]
      congr 2
      simp only [List.map_nil, List.nil_append, List.ofFn_succ, Fin.cons_zero, Fin.cons_succ]
      congr 1
      exact List.map_snd_zip (by simp)

end Qtune.EndToEnd
