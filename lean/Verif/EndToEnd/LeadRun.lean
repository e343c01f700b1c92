import Verif.EndToEnd.LeadModel
import Verif.EndToEnd.PropsLocal
import Verif.Evaluator.LocateProps

/-! # The evaluator of lead transitions in a tuner -/

namespace Qtune.EndToEnd

open Qtune.Tuner Qtune.Gradient Qtune.Autotuner Qtune.Evaluator

variable {n m : Nat}

theorem len_le_len {x y : Fin m → ℝ} (h : ∀ k, |x k| ≤ y k) : len x ≤ len y := by
  unfold len
  refine Real.sqrt_le_sqrt (Finset.sum_le_sum fun k _ => ?_)
  have := abs_nonneg (x k)
  rw [← sq_abs (x k)]
  exact pow_le_pow_left₀ this (h k) 2

/-- The settings that the result of `evaluate` depends on. -/
theorem inWindow_gate (s : Scan) (g : String) (w : Nat) (c : ℝ) : inWindow { s with gate := g } w c = inWindow s w c := rfl

theorem spacing_gate (s : Scan) (g : String) : spacing { s with gate := g } = spacing s := rfl

/-- The evaluator always returns all positions; each is read off the axis of the scan. -/
theorem bench_run {B : Bench n m} {grad : Fin m → Vec n} {c : Vec n} {R : ℝ} (hB : B.Valid grad c R) (v : Vec n) :
    ∃ r, (B.evaluator.evaluate (B.data fun i => some (v i)) ⟨B.world fun i => some (v i), []⟩).2 = .ok r ∧
      ∀ k, ∃ i < B.scan.nPoints, ∃ x, r.lookup ("position_" ++ B.shift k) = some x ∧ x = linspace B.scan i ∧
        |x - inWindow B.scan (windowPoints B.scan) (B.position k v)| ≤ spacing B.scan := by
  obtain ⟨m, rfl⟩ : ∃ m', m = m' + 1 := ⟨m - 1, by have := hB.nonempty; omega⟩
  have hmeas : ∀ (k : Nat) (s : Scan), B.evaluator.measurements[k]? = some s →
      ∃ h : k < m + 1, s = (B.measurement ⟨k, h⟩) := by
    intro k s hs
    unfold Bench.evaluator at hs
    rw [List.getElem?_eq_some_iff] at hs
    obtain ⟨h, hs⟩ := hs
    rw [List.length_ofFn] at h
    refine ⟨h, ?_⟩
    rw [← hs, List.getElem_ofFn]
  have hall : ∀ s ∈ B.evaluator.measurements, ∃ k, s = (B.measurement k) := by
    intro s hs
    obtain ⟨k, hk⟩ := List.mem_iff_getElem?.1 hs
    obtain ⟨h, h'⟩ := hmeas k s hk
    exact ⟨_, h'⟩
  obtain ⟨r, h1, h2⟩ := lead_transition_located_partial B.wire B.evaluator (B.data fun i => some (v i))
    ⟨B.world fun i => some (v i), []⟩ (first := (B.measurement 0))
    (rest := List.ofFn fun k : Fin m => (B.measurement k.succ)) (by
      intro k s g hs hg
      obtain ⟨h, rfl⟩ := hmeas k s hs
      have hg' : g = B.shift ⟨k, h⟩ := by
        unfold Bench.evaluator at hg
        rw [List.getElem?_eq_some_iff] at hg
        obtain ⟨_, hg⟩ := hg
        rw [← hg, List.getElem_ofFn]
      subst hg'
      simp only [List.length_nil, Nat.zero_add, Bench.data, dif_pos h]
      rfl) (by
      unfold Bench.evaluator
      dsimp only
      rw [List.ofFn_succ]) (by
      unfold Bench.evaluator
      rw [List.nodup_ofFn]
      exact hB.shift) (by
      intro s hs
      obtain ⟨k, rfl⟩ := hall s hs
      exact ⟨rfl, rfl, rfl⟩) hB.range hB.window (by
      intro s hs
      obtain ⟨k, rfl⟩ := hall s hs
      exact hB.shape k)
  refine ⟨r, h1, fun k => ?_⟩
  exact h2 k.1 (B.measurement k) (B.shift k) (by
    unfold Bench.evaluator
    dsimp only
    rw [List.getElem?_ofFn, dif_pos k.2]) (by
    unfold Bench.evaluator
    dsimp only
    rw [List.getElem?_ofFn, dif_pos k.2])

theorem bench_reported {B : Bench n m} {grad : Fin m → Vec n} {c : Vec n} {R : ℝ} (hB : B.Valid grad c R) (k : Fin m) (v : Vec n) :
    |B.reported k v - inWindow B.scan (windowPoints B.scan) (B.position k v)| ≤ spacing B.scan ∧
      ∃ i < B.scan.nPoints, B.reported k v = linspace B.scan i := by
  obtain ⟨r, hr, hx⟩ := bench_run hB v
  obtain ⟨i, hi, x, h1, h3, h2⟩ := hx k
  unfold Bench.reported
  rw [hr]
  simp only [h1, Option.getD_some]
  exact ⟨h2, i, hi, h3⟩

theorem lookup_map_val (r : List (String × ℝ)) (f : ℝ → Val) (l : String) :
    (r.map fun p => (p.1, f p.2)).lookup l = (r.lookup l).map f := by
  induction r with
  | nil => rfl
  | cons p r ih =>
    obtain ⟨a, b⟩ := p
    by_cases h : l = a
    · subst h; simp
    · simp [List.lookup_cons, beq_eq_false_iff_ne.2 h, ih]

theorem bench_sound {B : Bench n m} {grad : Fin m → Vec n} {c : Vec n} {R : ℝ} (hB : B.Valid grad c R) :
    (B.setup grad).Sound where
  gates_nodup := hB.gates_nodup
  gates_all := hB.gates_all
  names := by
    rw [Setup.names_eq, List.nodup_ofFn]
    intro i j h
    have h' : (B.row i).name = (B.row j).name := h
    rw [hB.names, hB.names, String.append_right_inj] at h'
    exact hB.shift h'
  desired := hB.desired
  scale := hB.scale
  tolerance := hB.tolerance
  nonempty := hB.nonempty
  evaluators := fun v => by
    obtain ⟨r, hr, hx⟩ := bench_run hB v
    refine ⟨fun _ => (1e-5 : ℝ) ^ 2, fun _ => rfl, ?_⟩
    have hrep : ∀ k, r.lookup ("position_" ++ B.shift k) = some (B.reported k v) := by
      intro k
      obtain ⟨i, -, x, h1, -⟩ := hx k
      rw [h1]
      unfold Bench.reported
      rw [hr]
      simp [h1]
    have hsel : ∀ f : ℝ → ℝ, Series.select (r.map fun p => (p.1, some (f p.2))) (B.setup grad).target.names =
        .ok (List.ofFn fun k => (((B.setup grad).row k).name, some (f (B.reported k v)))) := by
      intro f
      have hl : ∀ k, (r.map fun p => (p.1, some (f p.2))).lookup (B.row k).name = some (some (f (B.reported k v))) := by
        intro k
        rw [lookup_map_val r (fun x => some (f x)), hB.names, hrep]
        rfl
      unfold Series.select
      rw [Setup.names_eq, if_neg]
      · rw [List.map_ofFn]
        congr 1
        congr 1
        funext k
        have : (B.setup grad).row k = B.row k := rfl
        simp only [Function.comp, Series.val, this, hl k]
        rfl
      · rintro ⟨-, h⟩
        rw [List.all_eq_true] at h
        have h0 := h (B.row ⟨0, Nat.pos_of_ne_zero hB.nonempty⟩).name (List.mem_ofFn.2 ⟨_, rfl⟩)
        rw [hl] at h0
        simp at h0
    have hout : (B.setup grad).outs (fun i => some (v i)) =
        [.ok (r.map fun p => (p.1, some p.2), r.map fun p => (p.1, some ((1e-5 : ℝ) ^ 2)))] := by
      change B.outs _ = _
      unfold Bench.outs
      rw [hr]
    rw [hout]
    unfold evaluate
    simp only [collect, List.append_nil]
    rw [hsel fun x => x, hsel fun _ => (1e-5 : ℝ) ^ 2]
    rfl

theorem bench_soundOn {B : Bench n m} {grad : Fin m → Vec n} {c : Vec n} {R : ℝ} (hB : B.Valid grad c R) (A : Vec n → Prop) :
    (B.setup grad).SoundOn A :=
  have h := bench_sound hB
  ⟨h.gates_nodup, h.gates_all, h.names, h.desired, h.scale, h.tolerance, h.nonempty, fun v _ => h.evaluators v⟩

theorem bench_near {B : Bench n m} {grad : Fin m → Vec n} {c : Vec n} {R : ℝ} (hB : B.Valid grad c R) {v : Vec n} (hv : Near c R v)
    (k : Fin m) : |B.reported k v / B.scale k - B.position k v / B.scale k| ≤ spacing B.scan * |1 / B.scale k| := by
  have := (bench_reported hB k v).1
  rw [hB.inView k v hv] at this
  rw [← sub_div, abs_div, abs_div, abs_one, mul_one_div]
  exact div_le_div_of_nonneg_right this (abs_nonneg _)

theorem bench_bend {B : Bench n m} {grad : Fin m → Vec n} {c : Vec n} {R : ℝ} (hB : B.Valid grad c R) :
    NearlyAffineOn (B.setup grad) (Near c R) 0 B.error := by
  intro v s hv hvs
  rw [zero_mul, zero_add]
  have hsp : 0 ≤ spacing B.scan := (spacing_pos hB.range (by have := hB.window; omega)).le
  have hlen : B.error = len fun k => 2 * spacing B.scan * |1 / B.scale k| := by
    unfold Bench.error
    have h1 : (fun k => 2 * spacing B.scan * |1 / B.scale k|) = (2 * spacing B.scan) • fun k => |1 / B.scale k| := rfl
    rw [h1, len_smul, abs_of_nonneg (by positivity)]
    congr 1
    unfold len
    simp
  rw [hlen]
  refine len_le_len fun k => ?_
  obtain ⟨offset, hoff⟩ := hB.affine
  have h1 := bench_near hB hv k
  have h2 := bench_near hB hvs k
  have e : (B.setup grad).response k (v + s) / (B.setup grad).scale k - (B.setup grad).response k v / (B.setup grad).scale k -
      ∑ i, (B.setup grad).grad k i / (B.setup grad).scale k * s i =
      (B.reported k (v + s) / B.scale k - B.position k (v + s) / B.scale k) -
        (B.reported k v / B.scale k - B.position k v / B.scale k) := by
    have h3 : B.position k (v + s) / B.scale k - B.position k v / B.scale k = ∑ i, grad k i / B.scale k * s i := by
      rw [hoff k v hv, hoff k _ hvs, ← sub_div, add_sub_add_right_eq_sub, ← Finset.sum_sub_distrib, Finset.sum_div]
      refine Finset.sum_congr rfl fun i _ => ?_
      simp only [Pi.add_apply]
      ring
    change B.reported k (v + s) / B.scale k - B.reported k v / B.scale k - ∑ i, grad k i / B.scale k * s i = _
    rw [← h3]
    ring
  rw [e]
  refine (abs_sub _ _).trans ?_
  linarith

/-! ## What a complete tuning means -/

theorem suggest_same_target {X : Type} (I : Newton.EstI X (Fin n)) (lstsq : Newton.Lstsq (Fin n)) (p : List String)
    (s : Newton.State X (Fin n)) : (Newton.suggest I lstsq p s).1.target = s.target := by
  unfold Newton.suggest
  split
  · rfl
  · split
    · rfl
    · rfl
    · split <;> rfl

theorem update_same_target {X : Type} (I : Newton.EstI X (Fin n)) (v : Volt (Fin n)) (p q : Series)
    (s : Newton.State X (Fin n)) : (Newton.update I v p q s).1.target = s.target := by
  unfold Newton.update
  split
  · rfl
  · split <;> rfl

theorem nextVoltages_same_target {T : Type} (J : SolverI T (Fin n)) (h : ∀ p s, J.target (J.suggest p s).1 = J.target s)
    (p : List String) (t : SubsetTuner T (Fin n)) : J.target (nextVoltages J p t).1.solver = J.target t.solver := by
  replace h := h p t.solver
  unfold nextVoltages
  split
  · split <;> rfl
  · revert h
    cases J.suggest p t.solver with
    | mk s r =>
      intro h
      cases r with
      | error e => exact h
      | ok sug =>
        dsimp only
        split <;> exact h

/-- `is_tuned` keeps the target, and says true only if the evaluated parameters are within the tolerances. -/
theorem isTuned_same_target {T : Type} (J : SolverI T (Fin n)) (hp : ∀ v s, J.target (J.setPosition v s) = J.target s)
    (h : ∀ v p q s, J.target (J.update v p q s).1 = J.target s) (outs : List Outcome) (v : Volt (Fin n))
    (t : SubsetTuner T (Fin n)) : J.target (isTuned J outs v t).1.solver = J.target t.solver ∧
      ((isTuned J outs v t).2 = .ok true → ∃ p y, evaluate (J.target t.solver) outs = .ok (p, y) ∧
        ∀ r ∈ J.target t.solver, WithinTolerance r ((rescaleValues (J.target t.solver) p).val r.name)) := by
  unfold isTuned
  dsimp only
  split
  · exact ⟨hp _ _, fun h => by cases h⟩
  · cases evaluate (J.target t.solver) outs with
    | error e => exact ⟨rfl, fun h => by cases h⟩
    | ok py =>
      obtain ⟨p, y⟩ := py
      dsimp only
      split
      · exact ⟨rfl, fun h => by cases h⟩
      · split
        · exact ⟨rfl, fun h => by cases h⟩
        · split
          · exact ⟨rfl, fun h => by cases h⟩
          · replace h := h v (rescaleValues (J.target t.solver) p) (rescaleVariances (J.target t.solver) y) t.solver
            revert h
            cases J.update v (rescaleValues (J.target t.solver) p) (rescaleVariances (J.target t.solver) y) t.solver with
            | mk s r =>
              intro h
              cases r with
              | error e => exact ⟨h, fun h => by cases h⟩
              | ok u =>
                cases u
                dsimp only
                split
                · rename_i hw
                  exact ⟨h, fun _ => ⟨p, y, rfl, hw⟩⟩
                · exact ⟨h, fun h => by cases h⟩

theorem iterate_cases {W X V P C : Type} {H : Hierarchy W X V P C} {s s₁ : Autotuner.State W X V} {ev : List (Event W V P)}
    (h : iterate H (.ok ()) s = (s₁, ev, .ok ())) :
    (∃ v x, s.pending = some v ∧ H.hasNaN v = false ∧ H.setVolt v s.expt = (x, .ok ()) ∧
      s₁ = { s with expt := x, index := 0, pending := none }) ∨
    (∃ w x b, H.isTuned s.index (H.read s.expt) s.tuners s.expt = ((w, x), .ok b) ∧
      s₁ = { s with tuners := w, expt := x, index := if b then s.index + 1 else s.index, status := if b then s.status else true }) ∨
    (∃ w v, H.nextVolt s.index (H.tunedParams s.tuners s.index) s.tuners = (w, .ok v) ∧
      s₁ = { s with tuners := w, pending := some v, status := false }) := by
  unfold iterate at h
  split at h
  · cases h
  · cases h
  · split at h
    · cases h
    · split at h
      · rename_i v hv
        split at h
        · cases h
        · rename_i hnan
          split at h
          · cases h
          · rename_i x hx
            cases h
            exact .inl ⟨v, x, hv, by simpa using hnan, hx, rfl⟩
      · split at h
        · cases h
        · split at h
          · rename_i hst
            split at h
            · cases h
            · rename_i w x hx
              cases h
              exact .inr (.inl ⟨w, x, true, hx, rfl⟩)
            · rename_i w x hx
              cases h
              exact .inr (.inl ⟨w, x, false, hx, rfl⟩)
          · split at h
            · cases h
            · rename_i w v hx
              cases h
              exact .inr (.inr ⟨w, v, hx, rfl⟩)

/-- A complete tuning meets the set points, whatever the estimators do. -/
theorem complete_met {S : Setup n m} (hS : S.Sound) {X : Type} (I : Newton.EstI X (Fin n)) (lstsq : Newton.Lstsq (Fin n)) :
    ∀ (N : Nat) (s s' : Autotuner.State (OneTuner X n) (Volt (Fin n)) (Volt (Fin n))), s.tuners.solver.target = S.target →
      (∃ v, s.expt = volts v ∧ (s.index = 0 ∨ SetPointsMet S v)) → iterates (hierarchy I lstsq S.outs) N s = .ok s' →
      ∃ v, s'.expt = volts v ∧ (s'.index = 0 ∨ SetPointsMet S v)
  | 0, s, s', _, h, hs => by cases hs; exact h
  | N + 1, s, s', ht, ⟨v, hv, hi⟩, hs => by
    unfold iterates at hs
    have key : ∀ s₁ ev, iterate (hierarchy I lstsq S.outs) (.ok ()) s = (s₁, ev, .ok ()) → s₁.tuners.solver.target = S.target ∧
        ∃ v, s₁.expt = volts v ∧ (s₁.index = 0 ∨ SetPointsMet S v) := by
      intro s₁ ev h
      rcases iterate_cases h with ⟨w, x, -, hnan, hx, rfl⟩ | ⟨t, x, b, hx, rfl⟩ | ⟨t, w, hx, rfl⟩
      · replace hnan : decide (∃ i, w i = none) = false := hnan
        rw [decide_eq_false_iff_not, not_exists] at hnan
        cases hx
        refine ⟨ht, fun i => (w i).getD 0, ?_, .inl rfl⟩
        funext i
        change w i = some ((w i).getD 0)
        rcases hwi : w i with _ | a
        · exact absurd hwi (hnan i)
        · rfl
      · obtain ⟨h1, h2⟩ := isTuned_same_target (Newton.solver I lstsq) (fun _ _ => rfl) (update_same_target I) (S.outs s.expt) s.expt s.tuners
        have hx1 : (isTuned (Newton.solver I lstsq) (S.outs s.expt) s.expt s.tuners).1 = t := congrArg (fun p => p.1.1) hx
        have hx2 : s.expt = x := congrArg (fun p => p.1.2) hx
        have hx3 : (isTuned (Newton.solver I lstsq) (S.outs s.expt) s.expt s.tuners).2 = .ok b := congrArg (fun p => p.2) hx
        subst hx2
        rw [hx1] at h1
        refine ⟨h1.trans ht, v, hv, ?_⟩
        cases b with
        | false => exact hi
        | true =>
          right
          obtain ⟨p, y, hev, hw⟩ := h2 hx3
          have ht' : (Newton.solver I lstsq).target s.tuners.solver = S.target := ht
          obtain ⟨y', -, hev'⟩ := hS.evaluators v
          rw [ht', hv] at hev
          have : evaluate S.target (S.outs (volts v)) = _ := hev'
          rw [this] at hev
          cases hev
          intro k tol htol
          rw [ht'] at hw
          have h3 := hw (S.row k) (List.mem_ofFn.2 ⟨k, rfl⟩)
          rw [(Setup.rescaled hS v y').1, Setup.val_ofFn hS (fun k => some (S.scaled k v)) k] at h3
          unfold WithinTolerance at h3
          rw [htol, hS.desired k] at h3
          exact h3
      · have h1 := nextVoltages_same_target (Newton.solver I lstsq) (suggest_same_target I lstsq) [] s.tuners
        have hx' : nextVoltages (Newton.solver I lstsq) [] s.tuners = (t, .ok w) := hx
        rw [hx'] at h1
        exact ⟨h1.trans ht, v, hv, hi⟩
    revert hs key
    rcases iterate (hierarchy I lstsq S.outs) (.ok ()) s with ⟨s₁, ev, r⟩
    intro hs key
    cases r with
    | error e => cases hs
    | ok u =>
      cases u
      obtain ⟨h1, h2⟩ := key s₁ ev rfl
      exact complete_met hS I lstsq N s₁ s' h1 h2 hs

end Qtune.EndToEnd
