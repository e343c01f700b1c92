import Verif.EndToEnd.DotRun

/-! # C165: tuning a double dot from the data of its scans -/

namespace Qtune.EndToEnd

open Qtune.Tuner Qtune.Gradient Qtune.Autotuner Qtune.Evaluator Qtune.Evaluator.Fit

variable {n m : Nat}

/-- How far the tuned parameter may be from the set point although the reported one is within the tolerance: for transitions the distance of
two points of the scan, in units of the target. -/
noncomputable def Dot.slack (D : Dot n m) : Fin (m + 2) → ℝ :=
  Fin.cons 0 (Fin.cons 0 fun k => spacing D.bench.scan * |1 / D.bench.scale k|)

/-- **C165**.  A tuner whose parameters are load time, tunnel coupling and positions of lead transitions, evaluated by `NewLoadTime`,
`InterDotTCByLineScan` and `LeadTransition` from exact data, with fit routines that find exact fits (with positive widths) and
fresh finite difference estimators with steps of the length `η`.  If the parameters are nearly affine functions of the voltages near the
start, with gradients that are conditioned by `σ`, the tuning is complete after at most `3 * n + 1 + 3 * (L + 1)` calls, none of which
raises; the gates never have voltages more than `R` away from the start; and finally load time, coupling and transitions of the
device, not only the results of the evaluators, are at the set points within the tolerances (and the distance of two points). -/
theorem double_dot_is_tuned_partial {N : Numerics} (hN : N.Exact) (hp : PositiveWidths N) {D : Dot n m} {grad : Fin (m + 2) → Vec n}
    {c : Vec n} {R κ κ' : ℝ} (hD : D.Valid grad c R κ κ') (hκ : 0 ≤ κ + κ') {σ ρ η : ℝ} (hη : 0 < η)
    (hσ : ∀ x : Fin (m + 2) → ℝ, σ * len x ≤ len fun i => ∑ k, x k * (grad k i / D.scale k))
    (hρ : Real.sqrt n * (κ + κ' + D.bench.error / η) ≤ ρ) (hρσ : 2 * ρ + (κ + κ') < σ) {orth : Orth n} (ho : OrthSpec orth)
    {lstsq : Newton.Lstsq (Fin n)} (hls : Newton.LstsqSpec lstsq) (t : OneTuner (FD n) n)
    (ht : InitialEven (D.setup N grad) c η t) (L : Nat) {b : ℝ}
    (hb : missing (D.setup N grad) c + steepness (D.setup N grad) * η + (κ + κ') * η + D.bench.error ≤ b)
    (htol : ∀ k tol, (D.row k).tolerance = some tol →
      ((ρ + (κ + κ')) / (σ - ρ)) ^ (L + 1) * b + D.bench.error / (1 - (ρ + (κ + κ')) / (σ - ρ)) < tol)
    (hR : η + (b + (L + 1) * D.bench.error) / (1 - (ρ + (κ + κ')) / (σ - ρ)) / (σ - ρ) ≤ R) :
    ∃ M ≤ 3 * n + 1 + 3 * (L + 1),
      (∃ s', iterates (hierarchy (fdI orth) lstsq (D.outs N)) M (fresh t (volts c)) = .ok s' ∧
        isComplete (hierarchy (fdI orth) lstsq (D.outs N)) s' = true ∧ ∃ q : Vec n, s'.expt = volts q ∧
          ∀ k tol, (D.row k).tolerance = some tol → |D.desired k - D.truth k q / D.scale k| < tol + D.slack k) ∧
      ∀ j ≤ M, ∃ s', iterates (hierarchy (fdI orth) lstsq (D.outs N)) j (fresh t (volts c)) = .ok s' ∧
        ∃ v, s'.expt = volts v ∧ len (v - c) ≤ R := by
  have hsp : 0 < spacing D.bench.scan := spacing_pos hD.bench.range (by have := hD.bench.window; omega)
  have hδ : 0 ≤ D.bench.error := by
    unfold Bench.error
    have := len_nonneg fun k => 1 / D.bench.scale k
    positivity
  have hρ0 : 0 ≤ ρ := le_trans (by positivity) hρ
  have hτ : 0 < σ - ρ := by linarith
  have ha0 : 0 ≤ (ρ + (κ + κ')) / (σ - ρ) := by positivity
  have ha1 : 0 < 1 - (ρ + (κ + κ')) / (σ - ρ) := by
    rw [sub_pos, div_lt_one hτ]; linarith
  obtain ⟨M, hM, ⟨s', hs', hc, q, hq, hmet⟩, hin⟩ := local_device_is_tuned (dot_soundOn hN hp hD) (κ := κ + κ') hκ hδ hη (dot_bend hD)
    (σ := σ) hσ (ρ := ρ) hρ hρσ ho hls t ht L (by
      intro k tol hk
      have h1 := htol k tol hk
      have h2 := mul_le_mul_of_nonneg_left hb (pow_nonneg ha0 (L + 1))
      linarith) (by
      refine le_trans ?_ hR
      gcongr)
  refine ⟨M, hM, ⟨s', hs', hc, q, hq, ?_⟩, hin⟩
  obtain ⟨s'', h2, v, hv, hnear⟩ := hin M le_rfl
  rw [hs'] at h2
  cases h2
  rw [hq] at hv
  have hvq : q = v := by
    funext i
    have := congrFun hv i
    simpa [volts] using this
  subst hvq
  have h1 : ∀ k tol, (D.row k).tolerance = some tol → |D.desired k - D.reported k q / D.scale k| < tol := hmet
  refine all_parameters ?_ ?_ ?_
  · intro tol hk
    have := h1 0 tol hk
    change _ < tol + 0
    rw [add_zero]
    exact this
  · intro tol hk
    have := h1 1 tol hk
    change _ < tol + 0
    rw [add_zero]
    exact this
  · intro k tol hk
    have h4 : |D.desired k.succ.succ - D.bench.reported k q / D.bench.scale k| < tol := h1 k.succ.succ tol hk
    have h3 := bench_near hD.bench hnear k
    change |D.desired k.succ.succ - D.bench.position k q / D.bench.scale k| < tol + spacing D.bench.scan * |1 / D.bench.scale k|
    have e : D.desired k.succ.succ - D.bench.position k q / D.bench.scale k =
        (D.desired k.succ.succ - D.bench.reported k q / D.bench.scale k) +
          (D.bench.reported k q / D.bench.scale k - D.bench.position k q / D.bench.scale k) := by ring
    rw [e]
    exact lt_of_le_of_lt (abs_add_le _ _) (by linarith)

/-! ### Positive widths are needed -/

/-- When a tuning is complete, the evaluated parameters were within the tolerances at the present voltages. -/
theorem complete_evaluated {X : Type} (I : Newton.EstI X (Fin n)) (lstsq : Newton.Lstsq (Fin n)) (T : Target)
    (outs : Volt (Fin n) → List Outcome) :
    ∀ (N : Nat) (s s' : Autotuner.State (OneTuner X n) (Volt (Fin n)) (Volt (Fin n))), s.tuners.solver.target = T →
      (s.index = 0 ∨ ∃ p y, evaluate T (outs s.expt) = .ok (p, y) ∧ ∀ r ∈ T, WithinTolerance r ((rescaleValues T p).val r.name)) →
      iterates (hierarchy I lstsq outs) N s = .ok s' →
      s'.index = 0 ∨ ∃ p y, evaluate T (outs s'.expt) = .ok (p, y) ∧ ∀ r ∈ T, WithinTolerance r ((rescaleValues T p).val r.name)
  | 0, s, s', _, h, hs => by cases hs; exact h
  | N + 1, s, s', ht, hi, hs => by
    unfold iterates at hs
    have key : ∀ s₁ ev, iterate (hierarchy I lstsq outs) (.ok ()) s = (s₁, ev, .ok ()) → s₁.tuners.solver.target = T ∧
        (s₁.index = 0 ∨ ∃ p y, evaluate T (outs s₁.expt) = .ok (p, y) ∧
          ∀ r ∈ T, WithinTolerance r ((rescaleValues T p).val r.name)) := by
      intro s₁ ev h
      rcases iterate_cases h with ⟨w, x, -, hnan, hx, rfl⟩ | ⟨t, x, b, hx, rfl⟩ | ⟨t, w, hx, rfl⟩
      · exact ⟨ht, .inl rfl⟩
      · obtain ⟨h1, h2⟩ := isTuned_same_target (Newton.solver I lstsq) (fun _ _ => rfl) (update_same_target I) (outs s.expt) s.expt s.tuners
        have hx1 : (isTuned (Newton.solver I lstsq) (outs s.expt) s.expt s.tuners).1 = t := congrArg (fun p => p.1.1) hx
        have hx2 : s.expt = x := congrArg (fun p => p.1.2) hx
        have hx3 : (isTuned (Newton.solver I lstsq) (outs s.expt) s.expt s.tuners).2 = .ok b := congrArg (fun p => p.2) hx
        subst hx2
        rw [hx1] at h1
        refine ⟨h1.trans ht, ?_⟩
        have ht' : (Newton.solver I lstsq).target s.tuners.solver = T := ht
        cases b with
        | false => exact hi
        | true =>
          right
          rw [ht'] at h2
          exact h2 hx3
      · have h1 := nextVoltages_same_target (Newton.solver I lstsq) (suggest_same_target I lstsq) [] s.tuners
        have hx' : nextVoltages (Newton.solver I lstsq) [] s.tuners = (t, .ok w) := hx
        rw [hx'] at h1
        exact ⟨h1.trans ht, hi⟩
    revert hs key
    rcases iterate (hierarchy I lstsq outs) (.ok ()) s with ⟨s₁, ev, r⟩
    intro hs key
    cases r with
    | error e => cases hs
    | ok u =>
      cases u
      obtain ⟨h1, h2⟩ := key s₁ ev rfl
      exact complete_evaluated I lstsq T outs N s₁ s' h1 h2 hs

theorem load_label {N : Numerics} {data : Except PyErr NdArray} {ev : LoadTime} {p y : Series} (h : (ev.evaluate N data).2 = .ok (p, y)) :
    ∃ a, p = [("parameter_time_load", a)] := by
  unfold LoadTime.evaluate at h
  split at h
  · cases h
  · dsimp only at h
    split at h
    · cases h
    · split at h
      · cases h
      · cases h
      · cases h
        exact ⟨_, rfl⟩

/-- Without the assumption that fits return positive widths **C165** is false: there is a fit routine that finds exact fits with which no tuning of a double dot with a
set point for the tunnel coupling that is larger than the tolerance is ever complete, whatever the device, the data of the other scans, the estimators and the settings are. -/
theorem negative_widths_are_never_tuned_refuted : ∃ N : Numerics, N.Exact ∧ ∀ (n m : Nat) (D : Dot n m) (d f tol : ℝ),
    D.loadRow.name = "parameter_time_load" → D.couplingRow.name = "parameter_tunnel_coupling" →
    D.couplingRow.desired = some d → D.couplingRow.rescaling = some f → D.couplingRow.tolerance = some tol → 0 < f → tol ≤ d →
    (∀ v, (D.detuning v).range ≠ 0) → 3 ≤ D.points → (∀ v, D.coupling v ≠ 0) →
    ∀ (X : Type) (I : Newton.EstI X (Fin n)) (lstsq : Newton.Lstsq (Fin n)) (t : OneTuner X n), t.solver.target = List.ofFn D.row →
    ∀ (v : Vec n) (L : Nat) (s' : Autotuner.State (OneTuner X n) (Volt (Fin n)) (Volt (Fin n))),
      iterates (hierarchy I lstsq (D.outs N)) L (fresh t (volts v)) = .ok s' → isComplete (hierarchy I lstsq (D.outs N)) s' = false := by
  obtain ⟨N, hN, hneg⟩ := tunnel_coupling_sign_refuted
  refine ⟨N, hN, ?_⟩
  intro n m D d f tol hname0 hname1 hd hf htol hf0 hdt hrange hpts hw X I lstsq t ht v L s' hs'
  have hT : List.ofFn D.row = D.loadRow :: D.couplingRow :: List.ofFn D.bench.row := by
    rw [List.ofFn_succ, List.ofFn_succ]
    rfl
  rcases complete_evaluated I lstsq (List.ofFn D.row) (D.outs N) L (fresh t (volts v)) s' ht (.inl rfl) hs' with h | ⟨p, y, hev, hwithin⟩
  · unfold isComplete
    rw [h]
    rfl
  · exfalso
    have h1 := hwithin D.couplingRow (by rw [hT]; simp)
    obtain ⟨ev', w', error, h2, h3⟩ := hneg (D.detuning s'.expt) D.points (D.detuningData s'.expt) _ _ _ _ _ (hrange _) hpts
      (hw (numbers s'.expt)) rfl
    unfold evaluate Dot.outs at hev
    rw [h2] at hev
    cases hl : ((D.load s'.expt).evaluate N (.ok (D.loadData (numbers s'.expt)))).2 with
    | error e => rw [hl] at hev; simp [collect] at hev
    | ok py =>
      obtain ⟨p0, y0⟩ := py
      obtain ⟨a, rfl⟩ := load_label hl
      rw [hl] at hev
      simp only [collect] at hev
      cases hb : collect (D.bench.outs s'.expt) with
      | error e => rw [hb] at hev; cases hev
      | ok py =>
        obtain ⟨p1, y1⟩ := py
        rw [hb] at hev
        dsimp only at hev
        split at hev
        · cases hev
        · rename_i p' hp'
          split at hev
          · cases hev
          · cases hev
            have hp := Series.select_ok hp'
            have hv : (rescaleValues (List.ofFn D.row) p).val D.couplingRow.name = some (w' / f) := by
              have hfac : factor (List.ofFn D.row) "parameter_tunnel_coupling" = some f := by
                unfold factor Target.row?
                rw [hT]
                simp [hname0, hname1, hf]
              have hne : ("parameter_tunnel_coupling" == "parameter_time_load") = false := by decide
              rw [hp, hT, hname1]
              simp only [Target.names, List.map_cons, hname0, hname1, rescaleValues, Series.val, List.lookup_cons, hne, List.cons_append,
                List.nil_append, beq_self_eq_true]
              rw [← hT, hfac]
              simp [Val.div_some hf0.ne']
            rw [hv] at h1
            unfold WithinTolerance at h1
            rw [htol, hd] at h1
            simp only [Val.sub_some, Val.abs, Option.map_some, Option.getD_some] at h1
            have h4 : w' / f < 0 := div_neg_of_neg_of_pos h3 hf0
            have h5 := le_abs_self (d - w' / f)
            linarith

end Qtune.EndToEnd
