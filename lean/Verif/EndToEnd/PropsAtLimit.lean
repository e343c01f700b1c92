import Verif.EndToEnd.LimitsSpec
import Verif.EndToEnd.PropsSource
import Mathlib.Tactic.FinCases

/-! # A tuning that begins at a limit of the source -/

namespace Qtune.EndToEnd

open Qtune.Tuner Qtune.Gradient Qtune.Autotuner

variable {n : Nat} {X : Type}

/-- An evaluation in which the only estimator raises. -/
theorem evaluation_error {S : Setup n 1} (hS : S.Sound) {μ : Val × Int} {I : Newton.EstI X (Fin n)} {lstsq : Newton.Lstsq (Fin n)}
    {e : X} {e' : ℝ → X} {err : PyErr} {t : OneTuner X n} (h : Base S μ (fun _ => e) t) (q : Vec n)
    (hupd : ∀ y, I.update (volts q) (some (S.scaled 0 q)) (some y) e = (e' y, .error err)) :
    ∃ (y : ℝ) (t' : OneTuner X n),
      isTuned (Newton.solver I lstsq) (S.outs (volts q)) (volts q) t = (t', .error err) ∧ Base S μ (fun _ => e' y) t' := by
  classical
  obtain ⟨y, -, hy⟩ := hS.evaluators q
  have hy' : evaluate S.target (S.outs (volts q)) = _ := hy
  obtain ⟨hr1, hr2⟩ := Setup.rescaled hS q y
  obtain ⟨vals, hvals⟩ : ∃ vals : Series,
    vals = List.ofFn fun k => ((S.row k).name, some (S.scaled k q)) := ⟨_, rfl⟩
  obtain ⟨vars, hvars⟩ : ∃ vars : Series,
    vars = List.ofFn fun k => ((S.row k).name, some (y k / (S.scale k * S.scale k))) := ⟨_, rfl⟩
  rw [← hvals] at hr1
  rw [← hvars] at hr2
  have hvalk : ∀ k, vals.val (S.row k).name = some (S.scaled k q) := by
    intro k
    rw [hvals]
    exact Setup.val_ofFn hS (fun k => some (S.scaled k q)) k
  have hidx : vals.index = S.target.names := by
    rw [S.names_eq]
    simp [hvals, Series.index]
  have hidx' : vars.index = S.target.names := by
    rw [S.names_eq]
    simp [hvars, Series.index]
  have hsel1 : vals.select t.lastValues.index =
      .ok (t.lastValues.index.map fun l => (l, vals.val l)) :=
    select_sub (by rw [hidx]; exact h.lastIndex)
  have hsel2 : vars.select t.lastValues.index =
      .ok (t.lastValues.index.map fun l => (l, vars.val l)) :=
    select_sub (by rw [hidx']; exact h.lastIndex)
  have hval : ∀ l ∈ S.target.names, (vals.val l).isSome := by
    intro l hl
    rw [S.names_eq] at hl
    obtain ⟨k, rfl⟩ := (List.mem_ofFn' _ _).1 hl
    change (vals.val (S.row k).name).isSome
    rw [hvalk]
    rfl
  let y' : ℝ := y 0 / (S.scale 0 * S.scale 0)
  have hfeed : Newton.feed I S.target (volts q) (List.ofFn fun _ : Fin 1 => e) vals
      (vars.map Prod.snd) = ([e' y'], .error err) := by
    have hrow := Setup.row? hS 0
    have hd : (S.row 0).desired.isNone = false := by rw [hS.desired 0]; rfl
    simp [hvars, hvals, List.ofFn_succ, Newton.feed, hrow, hd, hupd, y']
  have hupdate : Newton.update I (volts q) vals vars t.solver = ({ t.solver with ests := [e' y'] }, .error err) := by
    unfold Newton.update
    have hsel : vals.select S.target.names = .ok vals := by
      rw [hvals]
      exact Setup.select hS _
    rw [h.index, hsel]
    simp only
    rw [h.target, h.ests, hfeed]
  refine ⟨y', { t with
    lastVoltage := volts q
    lastValues := t.lastValues.index.map fun l => (l, vals.val l)
    lastVariances := t.lastValues.index.map fun l => (l, vars.val l)
    lastFailed := false
    evaluatable := t.evaluatable ++ [volts q]
    solver := { t.solver with ests := [e' y'] } }, ?_, ?_⟩
  · unfold isTuned
    simp only
    rw [if_neg (by simp [h.queued])]
    have htarget : (Newton.solver I lstsq).target t.solver = S.target := h.target
    simp only [htarget, hy', hr1, hr2]
    simp only [hsel1, Series.index_map_mk, hsel2]
    rw [if_neg]
    · have hupdate' : (Newton.solver I lstsq).update (volts q) vals vars t.solver = _ := hupdate
      simp only [hupdate']
    · simp only [List.any_map, Bool.not_eq_true, List.any_eq_false, Function.comp_def]
      intro l hl
      have := hval l (h.lastIndex hl)
      simpa [Option.isSome_iff_ne_none] using this
  · refine ⟨h.target, by simp [List.ofFn_succ], h.gates, h.index, h.maxStep, h.maxNumber, h.queued, ?_⟩
    change Series.index (t.lastValues.index.map fun l => (l, vals.val l)) ⊆ _
    rw [Series.index_map_mk]
    exact h.lastIndex

/-- An estimator for one gate that has measured at `c` only, `k` times. -/
structure AtOnePoint (c eps : Vec 1) (k : Nat) (e : FD 1) : Prop where
  pos : e.pos = some c
  sym : e.symmetric = false
  est : e.estimate = none
  step : e.eps = eps
  count : e.stored.length = k
  places : ∀ p ∈ e.stored, p.1 = c ∧ p.2.1 ≠ none ∧ p.2.2 ≠ none

/-- With two measurements the gradient is calculated, which raises. -/
theorem AtOnePoint.second {c eps : Vec 1} {e : FD 1} (h : AtOnePoint c eps 1 e) (x y : ℝ) :
    ∃ e', e.update c (some x) (some y) = (e', .error .evaluationError) ∧ AtOnePoint c eps 2 e' := by
  obtain ⟨⟨p, a, b⟩, hp⟩ := List.length_eq_one_iff.1 h.count
  obtain ⟨h1, h2, h3⟩ := h.places (p, a, b) (by rw [hp]; simp)
  obtain ⟨a, rfl⟩ := Option.ne_none_iff_exists'.1 h2
  obtain ⟨b, rfl⟩ := Option.ne_none_iff_exists'.1 h3
  obtain rfl : p = c := h1
  have hg : gradientOf [(p, some x, some y), (p, some a, some b)] = .error .evaluationError := by
    have h0 := gradient_dependent_base (n := 1) (fun _ => p) ![x, a] [y, b] (by
      intro hli
      exact hli.ne_zero 0 (sub_self p))
    simp only [List.ofFn_succ, List.ofFn_zero] at h0
    simp [gradientOf, allReal]
    simp at h0
    rw [h0]
  refine ⟨{ e with stored := e.stored ++ [(p, some x, some y)] }, ?_, h.pos, h.sym, h.est, h.step, by simp [hp], ?_⟩
  · simp [FD.update, h.pos, h.est, h.sym, hp, hg]
  · intro r hr
    rw [List.mem_append] at hr
    rcases hr with hr | hr
    · exact h.places r hr
    · rw [List.mem_singleton] at hr
      subst hr
      simp

/-- With more measurements nothing is calculated. -/
theorem AtOnePoint.third {c eps : Vec 1} {e : FD 1} (h : AtOnePoint c eps 2 e) (x y : ℝ) :
    ∃ e', e.update c (some x) (some y) = (e', .ok ()) ∧ AtOnePoint c eps 3 e' := by
  refine ⟨{ e with stored := e.stored ++ [(c, some x, some y)] }, ?_, h.pos, h.sym, h.est, h.step, by simp [h.count], ?_⟩
  · simp [FD.update, h.pos, h.est, h.sym, h.count]
  · intro r hr
    rw [List.mem_append] at hr
    rcases hr with hr | hr
    · exact h.places r hr
    · rw [List.mem_singleton] at hr
      subst hr
      simp

/-- With three measurements every request raises. -/
theorem AtOnePoint.stuck {c eps : Vec 1} {e : FD 1} (h : AtOnePoint c eps 3 e) (orth : Orth 1) (gates : List (Fin 1)) :
    e.require orth gates = (e, .error (.runtimeError "Congratulations! You encountered a bug!")) := by
  obtain ⟨a, b, d, habd⟩ := List.length_eq_three.1 h.count
  simp [FD.require, h.pos, h.est, h.sym, nextPoint, habd]

/-- The request after the first measurement. -/
theorem AtOnePoint.request {c eps : Vec 1} {e : FD 1} (h : AtOnePoint c eps 1 e) {orth : Orth 1} {gates : List (Fin 1)}
    (hall : ∀ i, i ∈ gates) {u : Vec 1} (hu : orth gates [0] = some u) :
    ∃ e', e.require orth gates = (e', .ok (some fun i => some (c i + u i * eps i))) ∧ AtOnePoint c eps 1 e' := by
  obtain ⟨a, ha⟩ := List.length_eq_one_iff.1 h.count
  refine ⟨{ e with requested := e.requested ++ [fun i => some (c i + u i * eps i)] }, ?_, h.pos, h.sym, h.est, h.step,
    h.count, h.places⟩
  simp [FD.require, h.pos, h.est, h.sym, nextPoint, ha, hu, Gradient.request, hall, h.step]

/-- A suggestion of a solver with one estimator that raises. -/
theorem suggestion_error {S : Setup n 1} (hS : S.Sound) {μ : Val × Int} {I : Newton.EstI X (Fin n)} {lstsq : Newton.Lstsq (Fin n)}
    {e : X} {err : PyErr} {q : Vec n} {t : OneTuner X n} (h : At S μ (fun _ => e) q t)
    (hreq : I.require S.gates none e = (e, .error err)) :
    nextVoltages (Newton.solver I lstsq) [] t = (t, .error err) := by
  have htj : Newton.tunedJacobian I [] t.solver = .ok none :=
    (Newton.tuned_jacobian_rows I [] t.solver).1 (by simp)
  have hests : t.solver.ests = [e] := by rw [h.ests]; simp [List.ofFn_succ]
  have hd : (S.row 0).desired.isNone = false := by rw [hS.desired 0]; rfl
  have hs : Newton.suggest I lstsq [] t.solver = (t.solver, .error err) := by
    unfold Newton.suggest
    rw [htj, h.target, hests, h.gates]
    simp only [Setup.target, List.ofFn_succ, List.ofFn_zero, List.zip_cons_cons, List.zip_nil_left, Newton.ask]
    rw [hd, hreq]
    simp only [Bool.false_eq_true, if_false, List.map_nil]
    have htar : t.solver.target = [S.row 0] := by rw [h.target]; simp [Setup.target, List.ofFn_succ]
    rw [← hests, ← htar, ← h.gates]
  unfold nextVoltages
  rw [if_neg (by rw [h.lastFailed]; simp)]
  have hs' : (Newton.solver I lstsq).suggest [] t.solver = _ := hs
  simp only [hs']

/-- The state after `N` calls of `iterate` whose exceptions are caught. -/
noncomputable def afterCalls {W Y V P C : Type} (H : Autotuner.Hierarchy W Y V P C) : Nat → Autotuner.State W Y V → Autotuner.State W Y V
  | 0, s => s
  | N + 1, s => afterCalls H N (iterate H (.ok ()) s).1

/-- **C209 is false for a tuning that begins at a limit**: for every affine device with one gate there are a start and limits with
voltages in between that meet the set point, so that the tuning never comes to an end.  The first point that the estimator
asks for is not reached: it measures twice at the start, the fourth call raises an `EvaluationError`, and from the sixth
call on every call raises a `RuntimeError`, although the limits are far apart in the other direction. -/
theorem start_at_limit_refuted {S : Setup 1 1} (hS : S.Valid) {tol : ℝ} (htol : (S.row 0).tolerance = some tol)
    {orth : Orth 1} (ho : OrthSpec orth) (lstsq : Newton.Lstsq (Fin 1)) :
    ∃ c z lo hi : Vec 1, (∀ i, lo i < hi i) ∧ Between lo hi c ∧ Between lo hi z ∧
      S.response 0 z / S.scale 0 = S.desired 0 ∧
      ∀ (B : ℝ) (t : OneTuner (FD 1) 1), InitialWithin S c B t → t.maxStep = none →
        (∀ N, isComplete (sourced (fdI orth) lstsq S.outs (clip lo hi) true)
          (afterCalls (sourced (fdI orth) lstsq S.outs (clip lo hi) true) N (fresh t (volts c))) = false) ∧
        (iterate (sourced (fdI orth) lstsq S.outs (clip lo hi) true) (.ok ())
          (afterCalls (sourced (fdI orth) lstsq S.outs (clip lo hi) true) 3 (fresh t (volts c)))).2.2 =
            .error .evaluationError ∧
        ∀ N, (iterate (sourced (fdI orth) lstsq S.outs (clip lo hi) true) (.ok ())
          (afterCalls (sourced (fdI orth) lstsq S.outs (clip lo hi) true) (5 + N) (fresh t (volts c)))).2.2 =
            .error (.runtimeError "Congratulations! You encountered a bug!") := by
  -- the direction of the first request
  obtain ⟨u, hu⟩ : ∃ u, orth S.gates [0] = some u := Option.ne_none_iff_exists'.1
    (ho.complete S.gates [0] (fun _ => 1) (fun i hi => absurd (hS.gates_all i) hi) (fun v hv => by
      rw [List.mem_singleton] at hv
      subst hv
      simp [Gradient.inner]) (fun h => one_ne_zero (congrFun h 0)))
  have hu1 : u 0 = 1 ∨ u 0 = -1 := by
    have := ho.unit _ _ _ hu
    simp only [Gradient.inner, Fin.sum_univ_one] at this
    exact mul_self_eq_one_iff.1 this
  -- the target
  have hg : S.grad 0 0 / S.scale 0 ≠ 0 := by
    refine div_ne_zero (fun h0 => hS.independent.ne_zero 0 ?_) (hS.scale 0).2
    funext i
    fin_cases i
    exact h0
  set g := S.grad 0 0 / S.scale 0 with hgdef
  have haff := Setup.scaled_affine hS.affine 0
  have hdiff : ∀ a b : Vec 1, S.scaled 0 a - S.scaled 0 b = g * (a 0 - b 0) := by
    intro a b
    rw [haff.sub a b]
    simp [hgdef]
  obtain ⟨z, hz⟩ : ∃ z : Vec 1, S.scaled 0 z = S.desired 0 := by
    refine ⟨fun _ => (S.desired 0 - S.scaled 0 0) / g, ?_⟩
    have := hdiff (fun _ => (S.desired 0 - S.scaled 0 0) / g) 0
    simp only [Pi.zero_apply, sub_zero] at this
    rw [mul_div_cancel₀ _ hg] at this
    linarith
  have htp := hS.tolerance 0 tol htol
  obtain ⟨δ, hδ, hδt⟩ : ∃ δ : ℝ, 0 < δ ∧ tol ≤ |g| * δ :=
    ⟨tol / |g|, div_pos htp (abs_pos.2 hg), by rw [mul_div_cancel₀ _ (abs_ne_zero.2 hg)]⟩
  let c : Vec 1 := fun i => z i + δ * u i
  let lo : Vec 1 := fun i => min (z i - u i) (c i)
  let hi : Vec 1 := fun i => max (z i - u i) (c i)
  have hfin : ∀ i : Fin 1, i = 0 := fun i => Subsingleton.elim _ _
  have hnot : ¬ SetPointsMet S c := by
    intro h
    have h1 : |S.desired 0 - S.scaled 0 c| < tol := h 0 tol htol
    rw [← hz, hdiff] at h1
    have : z 0 - c 0 = -(δ * u 0) := by simp [c]
    rw [this, abs_mul, abs_neg, abs_mul, abs_of_pos hδ] at h1
    have hau : |u 0| = 1 := by rcases hu1 with h | h <;> simp [h]
    rw [hau, mul_one] at h1
    linarith
  have hcc : clip lo hi (volts c) = volts c := by
    funext i
    simp only [clip, volts, Option.map_some]
    rw [min_eq_right (le_max_right _ _), max_eq_right (min_le_right _ _)]
  have hclip : ∀ a : ℝ, 0 < a → clip lo hi (volts fun i => c i + u i * a) = volts c := by
    intro a ha
    funext i
    obtain rfl := hfin i
    simp only [clip, volts, Option.map_some, lo, hi, c]
    congr 1
    rcases hu1 with h | h <;> rw [h]
    · rw [max_eq_right (a := z 0 - 1) (by linarith), min_eq_left (a := z 0 - 1) (by linarith),
        min_eq_left (by linarith), max_eq_right (by linarith)]
    · rw [max_eq_left (a := z 0 - -1) (by linarith), min_eq_right (a := z 0 - -1) (by linarith),
        min_eq_right (by linarith), max_eq_left (by linarith)]
  refine ⟨c, z, lo, hi, ?_, fun i => ⟨min_le_right _ _, le_max_right _ _⟩, ?_, hz, ?_⟩
  · intro i
    obtain rfl := hfin i
    simp only [lo, hi, c, lt_max_iff, min_lt_iff]
    rcases hu1 with h | h <;> rw [h]
    · exact .inr (.inl (by linarith))
    · exact .inl (.inr (by linarith))
  · intro i
    obtain rfl := hfin i
    simp only [lo, hi, c, min_le_iff, le_max_iff]
    rcases hu1 with h | h <;> rw [h]
    · exact ⟨.inl (by linarith), .inr (by linarith)⟩
    · exact ⟨.inr (by linarith), .inl (by linarith)⟩
  intro B t ht hmax
  set H := sourced (fdI orth) lstsq S.outs (clip lo hi) true with hH
  obtain ⟨start, eps, hstart, heps, hests⟩ := ht.ests
  have heta : ∀ {Y : Type} (f : Fin 1 → Y), f = fun _ => f 0 := fun f => by
    funext i
    rw [hfin i]
  have hbase : Base S (t.maxStep, t.maxNumber) (fun _ => FD.new (start 0) (eps 0) false) t :=
    ⟨ht.target, by rw [hests, heta fun k => FD.new (start k) (eps k) false], ht.gates, ht.index, rfl, rfl, ht.queued, ht.lastIndex⟩
  have hsame : ∀ k : Fin 1, S.scaled k c = S.scaled 0 c := fun k => by rw [hfin k]
  -- the first evaluation
  have hfirst : ∀ y : ℝ, ∃ e', (fdI orth).update (volts c) (some (S.scaled 0 c)) (some y)
      (FD.new (start 0) (eps 0) false) = (e', .ok ()) ∧ AtOnePoint c (eps 0) 1 e' := by
    intro y
    have hv : (fun i => (volts c i).getD 0) = c := rfl
    change ∃ e', (FD.new (start 0) (eps 0) false).update (fun i => (volts c i).getD 0) _ _ = (e', .ok ()) ∧ _
    rw [hv]
    rcases hstart 0 with h0 | h0 <;> rw [h0]
    · exact ⟨_, rfl, rfl, rfl, rfl, rfl, rfl, by simp [FD.new]⟩
    · refine ⟨{ FD.new (some c) (eps 0) false with stored := [(c, some (S.scaled 0 c), some y)] }, ?_, rfl, rfl, rfl, rfl, rfl, by simp⟩
      simp [FD.update, FD.new]
  obtain ⟨y₁, t₁, b₁, hev₁, -, hAt₁, hb₁⟩ := evaluation (lstsq := lstsq) (I := fdI orth) hS.toSound hbase c
    (fun k y _ => by rw [hsame]; obtain ⟨e', he', -⟩ := hfirst y; exact ⟨e', he'⟩)
  have hb₁' : b₁ = false := by
    rw [← Bool.not_eq_true]
    exact fun h => hnot (hb₁.1 h)
  subst hb₁'
  obtain ⟨e₁, he₁, hp₁⟩ := hfirst (y₁ 0)
  rw [heta fun k => ((fdI orth).update (volts c) (some (S.scaled k c)) (some (y₁ k)) (FD.new (start 0) (eps 0) false)).1, he₁] at hAt₁
  -- the request
  obtain ⟨e₂, hreq, hp₂⟩ := hp₁.request (orth := orth) hS.gates_all hu
  have hsug : Newton.suggest (fdI orth) lstsq [] t₁.solver =
      ({ t₁.solver with ests := List.ofFn fun _ : Fin 1 => e₂ }, .ok fun i => some (some (c i + u i * eps 0 i))) := by
    have htj : Newton.tunedJacobian (fdI orth) [] t₁.solver = .ok none :=
      (Newton.tuned_jacobian_rows (fdI orth) [] t₁.solver).1 (by simp)
    have hfd : (fdI orth).require t₁.solver.gates none e₁ = (e₂, .ok (some fun i => some (some (c i + u i * eps 0 i)))) := by
      rw [hAt₁.gates]
      simp [fdI, hreq, Except.map]
    have hzip : t₁.solver.target.zip t₁.solver.ests = [] ++ (S.row 0, e₁) :: [] := by
      rw [hAt₁.target, hAt₁.ests]
      simp [Setup.target, List.ofFn_succ]
    have := Newton.requests_have_priority (fdI orth) lstsq [] t₁.solver none htj [] _ _ _ hzip
      (by simp) (by rw [hS.desired 0]; simp) (fun i => some (some (c i + u i * eps 0 i)))
      (by rw [hfd]) ⟨0, by simp⟩
    rw [this, hfd]
    simp [List.ofFn_succ]
  obtain ⟨t₂, hnext, hbase₂⟩ := suggestion (E' := fun _ => e₂) (q' := fun i => c i + u i * eps 0 i) hAt₁
    (fun M hM => by
      change t.maxStep = some M at hM
      rw [hmax] at hM
      cases hM) hsug
  have hcl : clip lo hi (volts fun i => c i + u i * eps 0 i) = volts c := by
    have := hclip (eps 0 0) (heps 0 0).1
    rw [← this]
    congr 1
    funext i
    rw [hfin i]
    rfl
  -- the second evaluation raises
  have hsec : ∀ y : ℝ, ∃ e', (fdI orth).update (volts c) (some (S.scaled 0 c)) (some y) e₂ = (e', .error .evaluationError) ∧
      AtOnePoint c (eps 0) 2 e' := fun y => hp₂.second _ y
  choose e₃ he₃ hp₃ using hsec
  obtain ⟨y₂, t₃, hev₃, hbase₃⟩ := evaluation_error (lstsq := lstsq) (I := fdI orth) hS.toSound hbase₂ c he₃
  -- the third does not
  obtain ⟨y₄, t₄, b₄, hev₄, -, hAt₄, hb₄⟩ := evaluation (lstsq := lstsq) (I := fdI orth) hS.toSound hbase₃ c
    (fun k y _ => by rw [hsame]; obtain ⟨e', he', -⟩ := (hp₃ y₂).third (S.scaled 0 c) y; exact ⟨e', he'⟩)
  have hb₄' : b₄ = false := by
    rw [← Bool.not_eq_true]
    exact fun h => hnot (hb₄.1 h)
  subst hb₄'
  obtain ⟨e₄, he₄, hp₄⟩ := (hp₃ y₂).third (S.scaled 0 c) (y₄ 0)
  have he₄' : (fdI orth).update (volts c) (some (S.scaled 0 c)) (some (y₄ 0)) (e₃ y₂) = (e₄, .ok ()) := he₄
  rw [heta fun k => ((fdI orth).update (volts c) (some (S.scaled k c)) (some (y₄ k)) (e₃ y₂)).1, he₄'] at hAt₄
  have hstuck := suggestion_error (I := fdI orth) (lstsq := lstsq) hS.toSound hAt₄
    (err := .runtimeError "Congratulations! You encountered a bug!") (by
      simp [fdI, hp₄.stuck orth S.gates, Except.map])
  -- the calls
  let q : Volt (Fin 1) := volts fun i => c i + u i * eps 0 i
  have h1 : iterate H (.ok ()) (fresh t (volts c)) = (⟨t₁, volts c, 0, true, none⟩, (iterate H (.ok ()) (fresh t (volts c))).2.1, .ok ()) := by
    simp [iterate, fresh, hH, sourced, hierarchy, isComplete, finish, hcc, hev₁]
  have h2 : iterate H (.ok ()) ⟨t₁, volts c, 0, true, none⟩ = (⟨t₂, volts c, 0, false, some q⟩, (iterate H (.ok ()) ⟨t₁, volts c, 0, true, none⟩).2.1, .ok ()) := by
    simp [iterate, hH, sourced, hierarchy, isComplete, finish, hnext, q]
  have h3 : iterate H (.ok ()) ⟨t₂, volts c, 0, false, some q⟩ = (⟨t₂, q, 0, false, none⟩, (iterate H (.ok ()) ⟨t₂, volts c, 0, false, some q⟩).2.1, .ok ()) := by
    simp [iterate, hH, sourced, hierarchy, isComplete, finish, q, volts]
  have h4 : iterate H (.ok ()) ⟨t₂, q, 0, false, none⟩ = (⟨t₃, q, 0, false, none⟩, (iterate H (.ok ()) ⟨t₂, q, 0, false, none⟩).2.1, .error .evaluationError) := by
    simp [iterate, hH, sourced, hierarchy, isComplete, q, hcl, hev₃]
  have h5 : iterate H (.ok ()) ⟨t₃, q, 0, false, none⟩ = (⟨t₄, q, 0, true, none⟩, (iterate H (.ok ()) ⟨t₃, q, 0, false, none⟩).2.1, .ok ()) := by
    simp [iterate, hH, sourced, hierarchy, isComplete, finish, q, hcl, hev₄]
  have h6 : iterate H (.ok ()) ⟨t₄, q, 0, true, none⟩ = (⟨t₄, q, 0, true, none⟩, (iterate H (.ok ()) ⟨t₄, q, 0, true, none⟩).2.1, .error (.runtimeError "Congratulations! You encountered a bug!")) := by
    simp [iterate, hH, sourced, hierarchy, isComplete, hstuck]
  have f1 := congrArg Prod.fst h1
  have f2 := congrArg Prod.fst h2
  have f3 := congrArg Prod.fst h3
  have f4 := congrArg Prod.fst h4
  have f5 := congrArg Prod.fst h5
  have f6 := congrArg Prod.fst h6
  dsimp only at f1 f2 f3 f4 f5 f6
  have hrest : ∀ N, afterCalls H N ⟨t₄, q, 0, true, none⟩ = ⟨t₄, q, 0, true, none⟩ := by
    intro N
    induction N with
    | zero => rfl
    | succ N ih =>
      unfold afterCalls
      rw [f6]
      exact ih
  have hfive : ∀ N, afterCalls H (5 + N) (fresh t (volts c)) = ⟨t₄, q, 0, true, none⟩ := by
    intro N
    rw [show 5 + N = N + 1 + 1 + 1 + 1 + 1 by omega]
    simp only [afterCalls, f1, f2, f3, f4, f5]
    exact hrest N
  refine ⟨?_, ?_, ?_⟩
  · intro N
    rcases Nat.lt_or_ge N 5 with hN | hN
    · obtain rfl | rfl | rfl | rfl | rfl : N = 0 ∨ N = 1 ∨ N = 2 ∨ N = 3 ∨ N = 4 := by omega
      · rfl
      all_goals simp only [afterCalls, f1, f2, f3, f4, f5]; rfl
    · obtain ⟨k, rfl⟩ := Nat.exists_eq_add_of_le hN
      rw [hfive]
      rfl
  · simp only [afterCalls, f1, f2, f3]
    exact congrArg (fun r => r.2.2) h4
  · intro N
    rw [hfive]
    exact congrArg (fun r => r.2.2) h6

/-! ### A device that meets the hypotheses -/

/-- One gate, one parameter with response `2 * g0 + 1`, set point 3, tolerance `1/10`, rescaling factor 4. -/
noncomputable def oneGateSetup : Setup 1 1 where
  row := fun _ => ⟨"x", some 3, none, none, some (1 / 10), none, some 4⟩
  desired := fun _ => 3
  scale := fun _ => 4
  grad := fun _ => ![2]
  response := fun _ v => 2 * v 0 + 1
  gates := [0]
  outs := fun v => [.ok ([("x", do let a ← v 0; pure (2 * a + 1))], [("x", some 1)])]
  variances := {1}

theorem oneGateSetup_valid : oneGateSetup.Valid where
  gates_nodup := by simp [oneGateSetup]
  gates_all := by intro i; fin_cases i; simp [oneGateSetup]
  names := by simp [oneGateSetup, Setup.target, Target.names]
  desired := fun _ => rfl
  scale := fun _ => ⟨rfl, by simp [oneGateSetup]⟩
  tolerance := fun k tol h => by
    simp [oneGateSetup] at h
    rw [← h]
    norm_num
  independent := by
    rw [linearIndependent_unique_iff]
    intro h
    have := congrFun h 0
    simp [oneGateSetup] at this
  nonempty := by simp
  affine := ⟨fun _ => 1, fun k v => by simp [oneGateSetup]⟩
  evaluators := fun v => by
    refine ⟨fun _ => 1, fun _ => rfl, ?_⟩
    simp [evaluate, collect, oneGateSetup, Setup.target, Target.names, Setup.response, Series.select,
      Series.val, List.lookup]

noncomputable def oneGateTuner : OneTuner (FD 1) 1 :=
  ⟨⟨oneGateSetup.target, [FD.new none (fun _ => 1 / 2) false], [0], fun _ => none, [("x", none)]⟩,
    [], fun _ => none, [], [], false, [], none, 5, 0⟩

example (c : Vec 1) : oneGateSetup.Valid ∧ (oneGateSetup.row 0).tolerance = some (1 / 10) ∧
    InitialWithin oneGateSetup c (1 / 2) oneGateTuner :=
  ⟨oneGateSetup_valid, rfl, rfl, ⟨fun _ => none, fun _ _ => 1 / 2, fun _ => .inl rfl, fun _ _ => by norm_num, rfl⟩, rfl, rfl,
    by simp [oneGateTuner, Series.index], rfl⟩

end Qtune.EndToEnd
