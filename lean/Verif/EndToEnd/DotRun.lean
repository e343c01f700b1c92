import Verif.EndToEnd.DotModel
import Verif.EndToEnd.LeadRun
import Verif.Evaluator.FitDeterminedProps

/-! # The evaluators of a double dot in a tuner -/

namespace Qtune.EndToEnd

open Qtune.Tuner Qtune.Gradient Qtune.Autotuner Qtune.Evaluator Qtune.Evaluator.Fit

variable {n m : Nat}

/-- A series that has an entry for each parameter of the target. -/
theorem select_of_lookup {k : Nat} (hk : k ≠ 0) (row : Fin k → Row) (s : Series) (f : Fin k → ℝ)
    (h : ∀ i, s.lookup (row i).name = some (some (f i))) :
    s.select (Target.names (List.ofFn row)) = .ok (List.ofFn fun i => ((row i).name, some (f i))) := by
  have hn : Target.names (List.ofFn row) = List.ofFn fun i => (row i).name := by
    simp [Target.names, List.map_ofFn, Function.comp_def]
  unfold Series.select
  rw [hn, if_neg]
  · rw [List.map_ofFn]
    congr 1
    congr 1
    funext i
    simp only [Function.comp, Series.val, h i]
    rfl
  · rintro ⟨-, h'⟩
    rw [List.all_eq_true] at h'
    have h0 := h' (row ⟨0, Nat.pos_of_ne_zero hk⟩).name (List.mem_ofFn.2 ⟨_, rfl⟩)
    rw [h] at h0
    simp at h0

theorem numbers_some (v : Vec n) : numbers (fun i => some (v i)) = v := rfl

/-- The fit of a detuning scan returns the width. -/
theorem coupling_exact {N : Numerics} (hN : N.Exact) (hp : PositiveWidths N) (ev : InterDot) (hrange : ev.range ≠ 0) {k : Nat}
    (hk : 8 ≤ k) {offset slope height position width : ℝ} (hh : height ≠ 0) (hw : 0 < width) :
    (ev.evaluate N (.ok (.d1 (lineOf k fun j => transition offset slope height position width (scanPoint ev.center ev.range k j))))).2 =
      .ok ([("parameter_tunnel_coupling", some width)], [("parameter_tunnel_coupling", some 0)]) := by
  obtain ⟨ev', offset', slope', height', position', w, error, h1, -, -, -, h5⟩ := tunnel_coupling_core hN ev hrange (by omega : 3 ≤ k)
    (data := .d1 (lineOf k fun j => transition offset slope height position width (scanPoint ev.center ev.range k j)))
    (offset := offset) (slope := slope) (height := height) (position := position) (width := width) rfl (fun w => 0 < w)
    (fun P r a b c d _ e => hp P r a b c d e)
  obtain ⟨w', h6, h7⟩ := tunnel_coupling_true_partial hN ev hrange hk
    (data := .d1 (lineOf k fun j => transition offset slope height position width (scanPoint ev.center ev.range k j)))
    (offset := offset) (slope := slope) (height := height) (position := position) (width := width) hh hw.ne' rfl
  rw [h6]
  rw [h1] at h6
  have h8 : w = w' := by
    have := congrArg (fun e => match e with | .ok (p, _) => Series.val p "parameter_tunnel_coupling" | .error _ => none) h6
    simpa [Series.val] using this
  subst h8
  rw [abs_of_pos h5, abs_of_pos hw] at h7
  rw [h7]

theorem dot_names (D : Dot n m) {grad : Fin (m + 2) → Vec n} {c : Vec n} {R κ κ' : ℝ} (hD : D.Valid grad c R κ κ') (k : Fin m) :
    "parameter_time_load" ≠ (D.bench.row k).name ∧ "parameter_tunnel_coupling" ≠ (D.bench.row k).name := by
  rw [hD.bench.names]
  constructor
  · intro h
    have := congrArg (fun s : String => s.toList[1]?) h
    simp [String.toList_append] at this
  · intro h
    have := congrArg (fun s : String => s.toList[1]?) h
    simp [String.toList_append] at this

/-- The results of all evaluators near the start. -/
theorem dot_outs {N : Numerics} (hN : N.Exact) (hp : PositiveWidths N) {D : Dot n m} {grad : Fin (m + 2) → Vec n} {c : Vec n}
    {R κ κ' : ℝ} (hD : D.Valid grad c R κ κ') {v : Vec n} (hv : Near c R v) :
    ∃ r : List (String × ℝ), (∀ k, r.lookup (D.bench.row k).name = some (D.bench.reported k v)) ∧
      D.outs N (fun i => some (v i)) = [.ok ([("parameter_time_load", some (D.loadTime v))], [("parameter_time_load", some 0)]),
        .ok ([("parameter_tunnel_coupling", some (D.coupling v))], [("parameter_tunnel_coupling", some 0)]),
        .ok (r.map fun p => (p.1, some p.2), r.map fun p => (p.1, some ((1e-5 : ℝ) ^ 2)))] := by
  obtain ⟨r, hr, hx⟩ := bench_run hD.bench v
  refine ⟨r, ?_, ?_⟩
  · intro k
    obtain ⟨i, -, x, h1, -⟩ := hx k
    rw [hD.bench.names, h1]
    unfold Bench.reported
    rw [hr]
    simp [h1]
  · obtain ⟨x, hx, y, hy, z, hz, hxy, hyz⟩ := hD.times
    obtain ⟨t1, t2, t3⟩ := hD.loadTime v hv
    obtain ⟨c1, c2⟩ := hD.coupling v hv
    unfold Dot.outs Dot.loadData Dot.detuningData
    rw [numbers_some, load_time_of_exact_data hN _ (hD.start _).1 (hD.start _).2 D.times hx hy hz hxy hyz t3 t1 t2,
      coupling_exact hN hp _ (hD.range _) hD.points c2 c1]
    unfold Bench.outs
    rw [hr]

theorem dot_row_zero (D : Dot n m) : D.row 0 = D.loadRow := rfl
theorem dot_row_one (D : Dot n m) : D.row 1 = D.couplingRow := rfl
theorem dot_row_succ (D : Dot n m) (k : Fin m) : D.row k.succ.succ = D.bench.row k := rfl

theorem dot_reported_succ (D : Dot n m) (k : Fin m) : D.reported k.succ.succ = D.bench.reported k := rfl

/-- A statement about all parameters. -/
theorem all_parameters {p : Fin (m + 2) → Prop} (h0 : p 0) (h1 : p 1) (h2 : ∀ k : Fin m, p k.succ.succ) : ∀ k, p k := by
  intro k
  refine Fin.cases h0 (fun k => ?_) k
  refine Fin.cases h1 (fun k => ?_) k
  exact h2 k

theorem dot_soundOn {N : Numerics} (hN : N.Exact) (hp : PositiveWidths N) {D : Dot n m} {grad : Fin (m + 2) → Vec n} {c : Vec n}
    {R κ κ' : ℝ} (hD : D.Valid grad c R κ κ') : (D.setup N grad).SoundOn (Near c R) where
  gates_nodup := hD.bench.gates_nodup
  gates_all := hD.bench.gates_all
  names := by
    rw [Setup.names_eq, List.nodup_ofFn]
    have hne : ∀ k : Fin m, D.loadRow.name ≠ (D.bench.row k).name ∧ D.couplingRow.name ≠ (D.bench.row k).name := by
      intro k
      rw [hD.loadName, hD.couplingName]
      exact dot_names D hD k
    have h01 : D.loadRow.name ≠ D.couplingRow.name := by
      rw [hD.loadName, hD.couplingName]
      decide
    have hinj : ∀ i j : Fin m, (D.bench.row i).name = (D.bench.row j).name → i = j := by
      intro i j h
      rw [hD.bench.names, hD.bench.names, String.append_right_inj] at h
      exact hD.bench.shift h
    intro i j h
    have h' : (D.row i).name = (D.row j).name := h
    revert h'
    clear h
    revert j
    refine all_parameters (p := fun i => ∀ j, (D.row i).name = (D.row j).name → i = j) ?_ ?_ ?_ i
    · refine all_parameters (fun _ => rfl) (fun h => absurd h h01) fun k h => absurd h (hne k).1
    · refine all_parameters (fun h => absurd h.symm h01) (fun _ => rfl) fun k h => absurd h (hne k).2
    · intro k
      refine all_parameters (fun h => absurd h.symm (hne k).1) (fun h => absurd h.symm (hne k).2) fun k' h => ?_
      rw [hinj k k' h]
  desired := hD.desired
  scale := hD.scale
  tolerance := hD.tolerance
  nonempty := by omega
  evaluators := fun v hv => by
    obtain ⟨r, hr, ho⟩ := dot_outs hN hp hD hv
    refine ⟨Fin.cons 0 (Fin.cons 0 fun _ => (1e-5 : ℝ) ^ 2), all_parameters (.inl rfl) (.inl rfl) fun _ => .inr rfl, ?_⟩
    have hlook : ∀ (a b : ℝ) (f : ℝ → ℝ) (k : Fin m),
        (("parameter_time_load", some a) :: ("parameter_tunnel_coupling", some b) :: r.map fun p => (p.1, (some (f p.2) : Val))).lookup
          (D.bench.row k).name = some (some (f (D.bench.reported k v))) := by
      intro a b f k
      obtain ⟨h1, h2⟩ := dot_names D hD k
      rw [List.lookup_cons, beq_eq_false_iff_ne.2 h1.symm, List.lookup_cons, beq_eq_false_iff_ne.2 h2.symm]
      dsimp only
      rw [lookup_map_val r (fun x => some (f x)), hr]
      rfl
    have hsel : ∀ (a b : ℝ) (f : ℝ → ℝ), Series.select (("parameter_time_load", some a) :: ("parameter_tunnel_coupling", some b) ::
        r.map fun p => (p.1, (some (f p.2) : Val))) (D.setup N grad).target.names =
        .ok (List.ofFn fun k => ((D.row k).name, some ((Fin.cons a (Fin.cons b fun k => f (D.bench.reported k v)) : Fin (m + 2) → ℝ) k))) := by
      intro a b f
      refine select_of_lookup (by omega) D.row _ _ ?_
      refine all_parameters ?_ ?_ ?_
      · rw [dot_row_zero, hD.loadName]
        rfl
      · rw [dot_row_one, hD.couplingName]
        rfl
      · intro k
        rw [dot_row_succ]
        exact hlook a b f k
    change evaluate (D.setup N grad).target (D.outs N _) = _
    rw [ho]
    unfold evaluate
    simp only [collect, List.append_nil, List.cons_append, List.nil_append]
    rw [hsel (D.loadTime v) (D.coupling v) fun x => x, hsel 0 0 fun _ => (1e-5 : ℝ) ^ 2]
    dsimp only
    congr 3
    funext k
    refine all_parameters (p := fun k => ((D.row k).name, some ((Fin.cons (D.loadTime v) (Fin.cons (D.coupling v) fun k =>
      D.bench.reported k v) : Fin (m + 2) → ℝ) k)) = (((D.setup N grad).row k).name, some ((D.setup N grad).response k v))) rfl rfl (fun _ => rfl) k

/-- The length of a vector with two more entries. -/
theorem len_two (f : Fin (m + 2) → ℝ) : len f ≤ |f 0| + |f 1| + len fun k : Fin m => f k.succ.succ := by
  unfold len
  rw [Fin.sum_univ_succ, Fin.sum_univ_succ]
  have h3 := Real.sqrt_nonneg (∑ k : Fin m, f k.succ.succ ^ 2)
  have hs : 0 ≤ ∑ k : Fin m, f k.succ.succ ^ 2 := Finset.sum_nonneg fun _ _ => sq_nonneg _
  have h4 := Real.sq_sqrt hs
  have e : (Fin.succ 0 : Fin (m + 2)) = 1 := rfl
  rw [e]
  generalize Real.sqrt (∑ k : Fin m, f k.succ.succ ^ 2) = L at *
  rw [← h4]
  have h1 := abs_nonneg (f 0)
  have h2 := abs_nonneg (f 1)
  rw [← sq_abs (f 0), ← sq_abs (f 1)]
  rw [Real.sqrt_le_iff]
  constructor
  · positivity
  · nlinarith [mul_nonneg h1 h2, mul_nonneg h1 h3, mul_nonneg h2 h3]

theorem dot_bend {N : Numerics} {D : Dot n m} {grad : Fin (m + 2) → Vec n} {c : Vec n}
    {R κ κ' : ℝ} (hD : D.Valid grad c R κ κ') : NearlyAffineOn (D.setup N grad) (Near c R) (κ + κ') D.bench.error := by
  intro v s hv hvs
  refine (len_two _).trans ?_
  have h0 := hD.bendLoad v s hv hvs
  have h1 := hD.bendCoupling v s hv hvs
  have h2 := bench_bend hD.bench v s hv hvs
  rw [zero_mul, zero_add] at h2
  rw [add_mul]
  exact add_le_add (add_le_add h0 h1) h2

end Qtune.EndToEnd
