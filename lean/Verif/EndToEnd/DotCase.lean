import Verif.EndToEnd.PropsDot
import Verif.EndToEnd.PropsLead

/-! # A double dot that meets the hypotheses of C165 -/

namespace Qtune.EndToEnd

open Qtune.Tuner Qtune.Gradient Qtune.Autotuner Qtune.Evaluator Qtune.Evaluator.Fit

open Classical in
/-- A fit routine that finds exact fits, and prefers those whose parameter 4 is positive. -/
noncomputable def upright : Numerics where
  curveFit P :=
    if none ∈ P.y then .error .valueError
    else if h : ∃ r : List ℝ, (P.Within r ∧ P.Through r) ∧ 0 < r.getD 4 0 then .ok h.choose
    else if h : ∃ r : List ℝ, P.Within r ∧ P.Through r then .ok h.choose
    else .error (.runtimeError "Optimal parameters not found")
  polyfit _ _ := (some 0, some 0)

theorem upright_ok (P : Problem) (r : List ℝ) (h : upright.curveFit P = .ok r) : P.Within r ∧ P.Through r := by
  simp only [upright] at h
  split at h
  · cases h
  · split at h
    next h' => cases h; exact h'.choose_spec.1
    · split at h
      next h' => cases h; exact h'.choose_spec
      · cases h

theorem upright_exact : upright.Exact := by
  refine ⟨⟨fun P h => by simp [upright, h], fun P r h => (upright_ok P r h).1.size,
    fun P r h => (upright_ok P r h).1.lower, fun P r h => (upright_ok P r h).1.upper⟩,
    fun x y _ => ⟨0, 0, rfl⟩, ?_⟩
  rintro P s - - hex
  have hn : none ∉ P.y := by
    obtain ⟨p, -, hp⟩ := hex
    rw [Problem.Through] at hp
    rw [hp]
    exact none_notMem_map_some _ _
  have hok : ∃ r, upright.curveFit P = .ok r := by
    simp only [upright, if_neg hn]
    split
    · exact ⟨_, rfl⟩
    · exact ⟨_, rfl⟩
  obtain ⟨r, hr⟩ := hok
  exact ⟨r, hr, (upright_ok P r hr).2⟩

theorem upright_positive : PositiveWidths upright := by
  intro P r hm h0 hl hu hr
  obtain ⟨hw, ht⟩ := upright_ok P r hr
  have hin : ∀ p : List ℝ, p.length = 5 → P.Within p := by
    intro p hp
    exact ⟨by omega, by rw [hl]; simp, by rw [hu]; simp⟩
  have hflip : ∀ p : List ℝ, (∀ t, interDotCurve p t = interDotCurve r t) → P.Through p := by
    intro p h
    rw [Problem.Through] at ht ⊢
    rw [ht, hm]
    exact List.map_congr_left fun t _ => by rw [h]
  have hex : ∃ r : List ℝ, (P.Within r ∧ P.Through r) ∧ 0 < r.getD 4 0 := by
    rcases lt_trichotomy (r.getD 4 0) 0 with h | h | h
    · refine ⟨[r.getD 0 0 + r.getD 2 0, r.getD 1 0, -r.getD 2 0, r.getD 3 0, -r.getD 4 0], ⟨hin _ rfl, hflip _ ?_⟩, by simpa using h⟩
      intro t
      have := transition_flip (r.getD 0 0) (r.getD 1 0) (r.getD 2 0) (r.getD 3 0) (r.getD 4 0) t
      unfold transition at this
      simp only [interDotCurve, interDotModel, List.getD_cons_zero, List.getD_cons_succ]
      linarith
    · refine ⟨[r.getD 0 0 + r.getD 2 0 / 2, r.getD 1 0, 0, 0, 1], ⟨hin _ rfl, hflip _ ?_⟩, by simp⟩
      intro t
      simp only [interDotCurve, interDotModel, List.getD_cons_zero, List.getD_cons_succ, h, div_zero, Real.tanh_zero]
      ring
    · exact ⟨r, ⟨hw, ht⟩, h⟩
  have hn : none ∉ P.y := by
    rw [Problem.Through] at ht
    rw [ht]
    exact none_notMem_map_some _ _
  simp only [upright, if_neg hn, dif_pos hex] at hr
  cases hr
  exact hex.choose_spec.2

/-- An exponential function is nearly affine. -/
theorem exp_bend {x h r : ℝ} (h1 : |x| ≤ r) (h2 : |x + h| ≤ r) : |Real.exp (x + h) - Real.exp x - h| ≤ (Real.exp r - 1) * |h| := by
  have e1 : ∀ y, |y| ≤ r → |Real.exp y - 1| ≤ Real.exp r - 1 := by
    intro y hy
    rw [abs_le] at hy
    rw [abs_le]
    have a1 := Real.exp_le_exp.2 hy.2
    have a2 := Real.exp_le_exp.2 hy.1
    have a3 := Real.add_one_le_exp r
    have a4 := Real.add_one_le_exp (-r)
    constructor <;> linarith
  have b1 : Real.exp x * h ≤ Real.exp (x + h) - Real.exp x := by
    rw [Real.exp_add]
    have := Real.add_one_le_exp h
    nlinarith [Real.exp_pos x]
  have b2 : Real.exp (x + h) - Real.exp x ≤ Real.exp (x + h) * h := by
    have e : Real.exp x = Real.exp (x + h) * Real.exp (-h) := by rw [← Real.exp_add]; congr 1; ring
    have := Real.add_one_le_exp (-h)
    nlinarith [Real.exp_pos (x + h)]
  have c1 : |(Real.exp x - 1) * h| ≤ (Real.exp r - 1) * |h| := by
    rw [abs_mul]; exact mul_le_mul_of_nonneg_right (e1 x h1) (abs_nonneg _)
  have c2 : |(Real.exp (x + h) - 1) * h| ≤ (Real.exp r - 1) * |h| := by
    rw [abs_mul]; exact mul_le_mul_of_nonneg_right (e1 _ h2) (abs_nonneg _)
  rw [abs_le] at c1 c2 ⊢
  constructor
  · linarith [c1.1]
  · linarith [c2.2]

/-- `exp r - 1` for small `r`. -/
theorem exp_sub_one_le {r : ℝ} (h : r < 1) : Real.exp r - 1 ≤ r / (1 - r) := by
  have h1 : 0 < 1 - r := by linarith
  have h2 := Real.add_one_le_exp (-r)
  have h3 : Real.exp r * Real.exp (-r) = 1 := by rw [← Real.exp_add]; simp
  rw [le_div_iff₀ h1]
  have := Real.exp_pos r
  nlinarith

/-! ### The simulations of the package -/

/-- The gates `L`, `O`, `U`; the transition of `transition_simulation` (basic_dqd.py:148-158), with many points. -/
noncomputable def simTransition : Bench 3 1 where
  name := !["L", "O", "U"]
  fixed := fun _ => 0
  wire := ⟨fun _ v => (v "L" - v "O") * 1e-3, fun m t => 0 + 1 * Real.tanh (t / (m.range / 5))⟩
  scan := ⟨"RFA", 0, 4e-3, 3200001⟩
  sweep := fun _ => "RFA"
  shift := fun _ => "RFB"
  width := 4e-3
  row := fun _ => ⟨"position_RFB", some (1 / 200), none, none, some (1 / 1000), none, some 1e-3⟩
  gates := [0, 1, 2]

/-- The load time as in `load_simulation` (basic_dqd.py:103-111), the tunnel coupling as in `detune_simulation` (basic_dqd.py:129-145), all other gates at 0. -/
noncomputable def simDot : Dot 3 1 where
  bench := simTransition
  loadRow := ⟨"parameter_time_load", some (3199 / 200), none, none, some (1 / 1000), none, some 1⟩
  couplingRow := ⟨"parameter_tunnel_coupling", some (38401 / 200), none, none, some (1 / 1000), none, some 1e-6⟩
  load := fun _ => ⟨["parameter_time_load"], 50, 50, none, .none, .none⟩
  times := (List.range 100).map fun j : Nat => (5 * j : ℝ)
  loadOffset := fun _ => 0
  loadHeight := fun _ => 1
  loadTime := fun v => 15 + Real.exp (-v 0 - v 1)
  detuning := fun _ => ⟨["parameter_tunnel_coupling"], 0, 2e-3, none, .none, .none⟩
  points := 100
  lineOffset := fun _ => -1
  lineSlope := fun _ => 0
  height := fun _ => 2
  center := fun _ => 0
  coupling := fun v => (Real.exp (v 2) + 1 + 190) * 1e-6

noncomputable def simGrad : Fin 3 → Vec 3 := ![![-1, -1, 0], ![0, 0, 1e-6], ![1e-3, -1e-3, 0]]

noncomputable def simDotTuner : OneTuner (FD 3) 3 :=
  ⟨⟨(simDot.setup upright simGrad).target, List.replicate 3 (FD.new none (fun _ => 1 / 500) false), [0, 1, 2], fun _ => none,
    [("parameter_time_load", none), ("parameter_tunnel_coupling", none), ("position_RFB", none)]⟩, [], fun _ => none, [], [], false, [], none, 5, 0⟩

theorem simTransition_spacing : spacing simTransition.scan = 25e-10 := by
  simp [spacing, simTransition]
  norm_num

theorem simTransition_window : windowPoints simTransition.scan = 160000 := by
  unfold windowPoints simTransition
  rw [Nat.floor_eq_iff (by positivity)]
  norm_num

theorem simTransition_position (k : Fin 1) (v : Vec 3) : simTransition.position k v = (v 0 - v 1) * 1e-3 := by
  simp [Bench.position, simTransition, Bench.shifted, Bench.world, List.finRange_succ]

theorem simTransition_error : simTransition.error = 5e-6 := by
  unfold Bench.error
  rw [simTransition_spacing]
  have : len (fun k => 1 / simTransition.scale k) = 1000 := by
    simp [len, Bench.scale, simTransition]
    rw [Real.sqrt_sq (by norm_num)]
    norm_num
  rw [this]
  norm_num

theorem sim_scale : simDot.scale 0 = 1 ∧ simDot.scale 1 = 1e-6 ∧ simDot.scale 2 = 1e-3 := ⟨rfl, rfl, rfl⟩

theorem sim_near {v : Vec 3} (hv : Near (fun _ => 0) (3 / 100) v) (i : Fin 3) : |v i| ≤ 3 / 100 := by
  simpa using (abs_le_len (v - fun _ => 0) i).trans hv

/-- The sum of two entries. -/
theorem sum_le_len (s : Vec 3) : |-s 0 - s 1| ≤ 1415 / 1000 * len s := by
  unfold len
  have h : Real.sqrt (2 * ∑ i, s i ^ 2) ≤ 1415 / 1000 * Real.sqrt (∑ i, s i ^ 2) := by
    rw [Real.sqrt_mul (by norm_num)]
    refine mul_le_mul_of_nonneg_right ?_ (Real.sqrt_nonneg _)
    rw [Real.sqrt_le_iff]
    norm_num
  refine le_trans ?_ h
  apply Real.abs_le_sqrt
  rw [Fin.sum_univ_three]
  nlinarith [sq_nonneg (s 0 - s 1), sq_nonneg (s 2)]

theorem simDot_valid : simDot.Valid simGrad (fun _ => 0) (3 / 100) (63 / 1000) (31 / 1000) where
  bench := {
    gates_nodup := by simp [simDot, simTransition]
    gates_all := by intro i; fin_cases i <;> simp [simDot, simTransition]
    nonempty := by simp
    shift := fun _ _ _ => Subsingleton.elim _ _
    names := fun _ => rfl
    desired := fun _ => rfl
    scale := fun _ => ⟨rfl, by simp [Bench.scale, simDot, simTransition]; norm_num⟩
    tolerance := fun k tol h => by
      simp [simDot, simTransition] at h
      rw [← h]
      norm_num
    range := by simp [simDot, simTransition]; norm_num
    window := by
      change windowPoints simTransition.scan + 2 ≤ _
      rw [simTransition_window]; simp [simDot, simTransition]
    shape := fun k => by
      change Signal.Peaked _ (windowPoints simTransition.scan * spacing simTransition.scan / 2)
      refine Signal.tanh_peaked one_ne_zero ?_ ?_
      · simp [Bench.measurement, simDot, simTransition]
        norm_num
      · rw [simTransition_window, simTransition_spacing]
        norm_num
    affine := ⟨fun _ => 0, fun k v _ => by
      change simTransition.position k v = _
      rw [simTransition_position, Fin.sum_univ_three]
      fin_cases k
      simp [simGrad]
      ring⟩
    inView := fun k v hv => by
      change inWindow simTransition.scan (windowPoints simTransition.scan) (simTransition.position k v) = simTransition.position k v
      rw [simTransition_position]
      have h0 := sim_near hv 0
      have h1 := sim_near hv 1
      rw [abs_le] at h0 h1
      unfold inWindow Signal.nearest
      rw [simTransition_window, simTransition_spacing]
      simp only [simTransition]
      rw [min_eq_right, max_eq_right]
      · norm_num
        linarith
      · norm_num
        linarith }
  loadName := rfl
  couplingName := rfl
  desired := all_parameters rfl rfl fun _ => rfl
  scale := all_parameters ⟨rfl, by rw [sim_scale.1]; norm_num⟩ ⟨rfl, by rw [sim_scale.2.1]; norm_num⟩ fun k => ⟨rfl, by
    fin_cases k
    change simDot.scale 2 ≠ 0
    rw [sim_scale.2.2]; norm_num⟩
  tolerance := all_parameters (fun tol h => by cases h; norm_num) (fun tol h => by cases h; norm_num) fun k tol h => by cases h; norm_num
  start := fun _ => by simp [simDot]; norm_num
  times := ⟨5 * (0 : Nat), List.mem_map.2 ⟨0, by simp, rfl⟩, 5 * (1 : Nat), List.mem_map.2 ⟨1, by simp, rfl⟩, 5 * (2 : Nat),
    List.mem_map.2 ⟨2, by simp, rfl⟩, by norm_num, by norm_num⟩
  range := fun _ => by simp [simDot]; norm_num
  points := by simp [simDot]
  loadTime := fun v hv => by
    have h0 := sim_near hv 0
    have h1 := sim_near hv 1
    rw [abs_le] at h0 h1
    have h2 := Real.exp_pos (-v 0 - v 1)
    have h3 := exp_sub_one_le (r := 1 / 2) (by norm_num)
    have h4 : Real.exp (-v 0 - v 1) ≤ Real.exp (1 / 2) := Real.exp_le_exp.2 (by linarith)
    norm_num at h3
    refine ⟨?_, ?_, one_ne_zero⟩ <;> simp only [simDot] <;> linarith
  coupling := fun v _ => by
    have := Real.exp_pos (v 2)
    refine ⟨?_, two_ne_zero⟩
    simp only [simDot]
    positivity
  bendLoad := fun v s hv hvs => by
    have e : |-(v + s) 0 - (v + s) 1| ≤ 425 / 10000 := (sum_le_len _).trans (by
      have : len (v + s) ≤ 3 / 100 := by
        have h := hvs
        unfold Near at h
        have hz : (v + s - fun _ => (0 : ℝ)) = v + s := by funext i; simp
        rwa [hz] at h
      linarith)
    have e' : |-v 0 - v 1| ≤ 425 / 10000 := (sum_le_len _).trans (by
      have : len v ≤ 3 / 100 := by
        have h := hv
        unfold Near at h
        have hz : (v - fun _ => (0 : ℝ)) = v := by funext i; simp
        rwa [hz] at h
      linarith)
    have hx : -(v + s) 0 - (v + s) 1 = (-v 0 - v 1) + (-s 0 - s 1) := by simp; ring
    rw [hx] at e
    have h1 := exp_bend e' e
    have h2 := exp_sub_one_le (r := 425 / 10000) (by norm_num)
    have h3 := sum_le_len s
    have h4 := len_nonneg s
    rw [sim_scale.1, Fin.sum_univ_three]
    simp only [simDot, hx, simGrad]
    have e2 : (15 + Real.exp (-v 0 - v 1 + (-s 0 - s 1))) / 1 - (15 + Real.exp (-v 0 - v 1)) / 1 -
        ((![![-1, -1, 0], ![0, 0, 1e-6], ![1e-3, -1e-3, 0]] : Fin 3 → Vec 3) 0 0 / 1 * s 0 +
        (![![-1, -1, 0], ![0, 0, 1e-6], ![1e-3, -1e-3, 0]] : Fin 3 → Vec 3) 0 1 / 1 * s 1 +
        (![![-1, -1, 0], ![0, 0, 1e-6], ![1e-3, -1e-3, 0]] : Fin 3 → Vec 3) 0 2 / 1 * s 2) =
        Real.exp (-v 0 - v 1 + (-s 0 - s 1)) - Real.exp (-v 0 - v 1) - (-s 0 - s 1) := by
      simp
      ring
    refine (le_of_eq (congrArg abs e2)).trans (h1.trans ?_)
    have h5 : (Real.exp (425 / 10000) - 1) * |-s 0 - s 1| ≤ 425 / 10000 / (1 - 425 / 10000) * (1415 / 1000 * len s) :=
      mul_le_mul h2 h3 (abs_nonneg _) (by norm_num)
    refine h5.trans ?_
    rw [← mul_assoc]
    refine mul_le_mul_of_nonneg_right ?_ h4
    norm_num
  bendCoupling := fun v s hv hvs => by
    have e := sim_near hvs 2
    have e' := sim_near hv 2
    have h1 := exp_bend (h := s 2) e' e
    have h2 := exp_sub_one_le (r := 3 / 100) (by norm_num)
    have h3 := abs_le_len s 2
    have h4 := len_nonneg s
    rw [sim_scale.2.1, Fin.sum_univ_three]
    simp only [simDot, simGrad]
    have e2 : (Real.exp ((v + s) 2) + 1 + 190) * 1e-6 / 1e-6 - (Real.exp (v 2) + 1 + 190) * 1e-6 / 1e-6 -
        ((![![-1, -1, 0], ![0, 0, 1e-6], ![1e-3, -1e-3, 0]] : Fin 3 → Vec 3) 1 0 / 1e-6 * s 0 +
        (![![-1, -1, 0], ![0, 0, 1e-6], ![1e-3, -1e-3, 0]] : Fin 3 → Vec 3) 1 1 / 1e-6 * s 1 +
        (![![-1, -1, 0], ![0, 0, 1e-6], ![1e-3, -1e-3, 0]] : Fin 3 → Vec 3) 1 2 / 1e-6 * s 2) =
        Real.exp (v 2 + s 2) - Real.exp (v 2) - s 2 := by
      simp
      field_simp
      ring
    refine (le_of_eq (congrArg abs e2)).trans (h1.trans ?_)
    have h5 : (Real.exp (3 / 100) - 1) * |s 2| ≤ 3 / 100 / (1 - 3 / 100) * len s :=
      mul_le_mul h2 h3 (abs_nonneg _) (by norm_num)
    refine h5.trans ?_
    refine mul_le_mul_of_nonneg_right ?_ h4
    norm_num

theorem sim_missing : missing (simDot.setup upright simGrad) (fun _ => 0) ≤ 87 / 10000 := by
  have h2 := bench_near simDot_valid.bench (v := fun _ => 0) (by simp [Near, len]; norm_num) 0
  change |simTransition.reported 0 _ / simTransition.scale 0 - simTransition.position 0 _ / simTransition.scale 0| ≤
    spacing simTransition.scan * |1 / simTransition.scale 0| at h2
  have h3 : simTransition.scale 0 = 1e-3 := rfl
  rw [simTransition_position, simTransition_spacing, h3] at h2
  norm_num at h2
  have h4 : |1 / 200 - simTransition.reported 0 (fun _ => 0) / 1e-3| ≤ 50026 / 10000000 := by
    norm_num
    rw [abs_le] at h2 ⊢
    constructor <;> linarith
  have e : missing (simDot.setup upright simGrad) (fun _ => 0) = Real.sqrt ((3199 / 200 - (15 + Real.exp (-0 - 0)) / 1) ^ 2 +
      (38401 / 200 - (Real.exp 0 + 1 + 190) * 1e-6 / 1e-6) ^ 2 + (1 / 200 - simTransition.reported 0 (fun _ => 0) / 1e-3) ^ 2) := by
    unfold missing len
    rw [Fin.sum_univ_three]
    have d0 : (simDot.setup upright simGrad).desired 0 = 3199 / 200 := rfl
    have d1 : (simDot.setup upright simGrad).desired 1 = 38401 / 200 := rfl
    have d2 : (simDot.setup upright simGrad).desired 2 = 1 / 200 := rfl
    have s0 : (simDot.setup upright simGrad).scale 0 = 1 := rfl
    have s1 : (simDot.setup upright simGrad).scale 1 = 1e-6 := rfl
    have s2 : (simDot.setup upright simGrad).scale 2 = 1e-3 := rfl
    have r0 : (simDot.setup upright simGrad).response 0 (fun _ => 0) = 15 + Real.exp (-0 - 0) := rfl
    have r1 : (simDot.setup upright simGrad).response 1 (fun _ => 0) = (Real.exp 0 + 1 + 190) * 1e-6 := rfl
    have r2 : (simDot.setup upright simGrad).response 2 = simDot.bench.reported 0 := by
      have e2 : (2 : Fin 3) = Fin.succ (Fin.succ (0 : Fin 1)) := rfl
      have e3 : (simDot.setup upright simGrad).response = simDot.reported := rfl
      rw [e3, e2]
      exact dot_reported_succ simDot 0
    have hb : simDot.bench = simTransition := rfl
    beta_reduce
    rw [d0, d1, d2, s0, s1, s2, r0, r1, r2, hb]
  rw [e, Real.sqrt_le_iff]
  refine ⟨by norm_num, ?_⟩
  have h5 : (1 / 200 - simTransition.reported 0 (fun _ => 0) / 1e-3) ^ 2 ≤ (50026 / 10000000) ^ 2 := by
    rw [← sq_abs]
    exact pow_le_pow_left₀ (abs_nonneg _) h4 2
  norm_num at h5 ⊢
  linarith

/-- All hypotheses are met from voltages 0, with steps of 2 mV: the load time is 16 and the set point 15.995, the width 192 µV and the set
point 192.005 µV, the transition at 0 and the set point 5 µV. -/
example : (∀ x : Fin 3 → ℝ, 1 * len x ≤ len fun i => ∑ k, x k * (simGrad k i / simDot.scale k)) ∧
    Real.sqrt (3 : Nat) * (63 / 1000 + 31 / 1000 + simDot.bench.error / (1 / 500)) ≤ 17 / 100 ∧
    2 * (17 / 100) + (63 / 1000 + 31 / 1000) < (1 : ℝ) ∧
    InitialEven (simDot.setup upright simGrad) (fun _ => 0) (1 / 500) simDotTuner ∧
    missing (simDot.setup upright simGrad) (fun _ => 0) + steepness (simDot.setup upright simGrad) * (1 / 500) +
      (63 / 1000 + 31 / 1000) * (1 / 500) + simDot.bench.error ≤ 14 / 1000 ∧
    (∀ k tol, (simDot.row k).tolerance = some tol → ((17 / 100 + (63 / 1000 + 31 / 1000)) / (1 - 17 / 100)) ^ (2 + 1) * (14 / 1000) +
      simDot.bench.error / (1 - (17 / 100 + (63 / 1000 + 31 / 1000)) / (1 - 17 / 100)) < tol) ∧
    1 / 500 + (14 / 1000 + ((2 : Nat) + 1) * simDot.bench.error) / (1 - (17 / 100 + (63 / 1000 + 31 / 1000)) / (1 - 17 / 100)) /
      (1 - 17 / 100) ≤ 3 / 100 := by
  have herr : simDot.bench.error = 5e-6 := simTransition_error
  rw [herr]
  refine ⟨?_, ?_, by norm_num, ?_, ?_, ?_, by norm_num⟩
  · intro x
    rw [one_mul]
    unfold len
    apply Real.sqrt_le_sqrt
    simp only [Fin.sum_univ_three, sim_scale.1, sim_scale.2.1, sim_scale.2.2, simGrad]
    simp
    norm_num
    nlinarith [sq_nonneg (x 0), sq_nonneg (x 2)]
  · have : Real.sqrt (3 : Nat) ≤ 1733 / 1000 := by
      rw [Real.sqrt_le_iff]
      norm_num
    norm_num at this ⊢
    linarith
  · exact ⟨rfl, ⟨fun _ => none, fun _ => .inl rfl, rfl⟩, rfl, rfl, by simp [simDotTuner, Series.index], rfl, rfl⟩
  · have h1 := sim_missing
    have h2 : steepness (simDot.setup upright simGrad) ≤ 2237 / 1000 := by
      have e : steepness (simDot.setup upright simGrad) = Real.sqrt (∑ k, ∑ i, (simGrad k i / simDot.scale k) ^ 2) := rfl
      rw [e, Real.sqrt_le_iff]
      refine ⟨by norm_num, ?_⟩
      simp only [Fin.sum_univ_three, sim_scale.1, sim_scale.2.1, sim_scale.2.2, simGrad]
      simp
      norm_num
    norm_num at h1 h2 ⊢
    linarith
  · refine all_parameters ?_ ?_ ?_
    · intro tol h; cases h; norm_num
    · intro tol h; cases h; norm_num
    · intro k tol h; cases h; norm_num

end Qtune.EndToEnd
