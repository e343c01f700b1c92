import Verif.TestExperiment.ScanSimModel
import Mathlib.Analysis.Real.Pi.Bounds
import Mathlib.Tactic.Linarith
import Mathlib.Tactic.NormNum
import Mathlib.Tactic.FieldSimp
import Mathlib.Tactic.Ring
import Mathlib.Tactic.Positivity

/-!
# What the simulated scans of sensing dots show (C191)
-/

namespace Qtune.ScanSim

open Qtune.Evaluator.Fit (linspaceList)

/-- The signal of the simulated sensing dot for the voltages of SDB1, N and SDB2: a peak at 0 V of SDB2. -/
noncomputable def peak (sdb1 n sdb2 : ℝ) : ℝ := (1 + 1e3 * sdb1) * (1 + sdb1 - n) * Real.exp (-0.5 * sdb2 ^ 2 / 2e-6)

/-- The voltage that an evaluator assigns to the point `i` of a scan (evaluator.py:626-629, 706-711). -/
noncomputable def axis (center range : ℝ) (n i : Nat) : ℝ := center - range + i * (2 * range / ((n : ℝ) - 1))

theorem linspace_get (a b : ℝ) (n i : Nat) (hi : i < n) : (linspaceList a b n)[i]? = some (a + i * ((b - a) / ((n : ℝ) - 1))) := by
  simp [linspaceList, hi]

/-- `axis` is what `np.linspace` gives. -/
theorem axis_is_linspace (c r : ℝ) (n i : Nat) (hi : i < n) : (linspaceList (c - r) (c + r) n)[i]? = some (axis c r n i) := by
  rw [linspace_get _ _ _ _ hi, axis]
  congr 3
  ring

theorem arange_points : arange (-4e-3) 4e-3 (8e-3 / 1280) = (List.range 1280).map fun (i : Nat) => (-4e-3 : ℝ) + i * (8e-3 / 1280) := by
  have : ⌈((4e-3 : ℝ) - -4e-3) / (8e-3 / 1280)⌉₊ = 1280 := by
    have : ((4e-3 : ℝ) - -4e-3) / (8e-3 / 1280) = (1280 : Nat) := by norm_num
    rw [this, Nat.ceil_natCast]
  unfold arange
  rw [this]

theorem ss1d_eq {v : List (String × ℝ)} {a b c : ℝ} (h1 : v.lookup "SDB1" = some a) (h2 : v.lookup "N" = some b)
    (h3 : v.lookup "SDB2" = some c) (m : LineOptions) :
    ss1d v m = .ok ((List.range 1280).map fun (i : Nat) => peak a b (-4e-3 + i * (8e-3 / 1280) + c)) := by
  simp only [ss1d, arange_points, voltage, h1, h2, h3, bind, Except.bind, pure, Except.pure, peak, List.map_map]
  rfl

/-- **C191**, line scans.  If SDB2 is swept by 4 mV to both sides of its present voltage in 1280 points (the default of SensingDot1D), the datum
of each point is the signal of the simulated dot at a voltage of SDB2 that differs from the voltage of the point by at most the distance of
two points; the other gates are at their present voltages. -/
theorem line_simulation_partial (v : List (String × ℝ)) (a b c : ℝ) (h1 : v.lookup "SDB1" = some a) (h2 : v.lookup "N" = some b)
    (h3 : v.lookup "SDB2" = some c) (m : LineOptions) :
    ∃ data, ss1d v m = .ok data ∧ data.length = 1280 ∧ ∀ i, i < 1280 → ∃ s, data[i]? = some (peak a b s) ∧
      |s - axis c 4e-3 1280 i| ≤ 8e-3 / 1280 := by
  refine ⟨_, ss1d_eq h1 h2 h3 m, by simp, fun i hi => ⟨-4e-3 + i * (8e-3 / 1280) + c, by simp [hi], ?_⟩⟩
  have h : (-4e-3 : ℝ) + i * (8e-3 / 1280) + c - axis c 4e-3 1280 i = -(i * (8e-3 / 1280 / 1279)) := by
    unfold axis
    push_cast
    ring
  rw [h, abs_neg, abs_of_nonneg (by positivity)]
  have hi' : (i : ℝ) ≤ 1279 := by exact_mod_cast (by omega : i ≤ 1279)
  calc (i : ℝ) * (8e-3 / 1280 / 1279) ≤ 1279 * (8e-3 / 1280 / 1279) := by gcongr
    _ = 8e-3 / 1280 := by norm_num

/-- **C191** is false for line scans with other options: they do not matter.  With another range the first datum is the signal 4 mV below the
present voltage and not at the first point of the scan, and if another gate is to be swept the data are the same as for SDB2. -/
theorem line_options_refuted (v : List (String × ℝ)) (a b c : ℝ) (h1 : v.lookup "SDB1" = some a) (h2 : v.lookup "N" = some b)
    (h3 : v.lookup "SDB2" = some c) (m : LineOptions) :
    ss1d v m = ss1d v ⟨"SDB2", c, 4e-3, 1280⟩ ∧
    ∃ data s, ss1d v m = .ok data ∧ data[0]? = some (peak a b s) ∧ s = c - 4e-3 ∧
      (m.range ≠ 4e-3 → s ≠ axis c m.range m.nPoints 0) := by
  refine ⟨rfl, _, c - 4e-3, ss1d_eq h1 h2 h3 m, ?_, rfl, ?_⟩
  · have : (-4e-3 : ℝ) + ((0 : Nat) : ℝ) * (8e-3 / 1280) + c = c - 4e-3 := by push_cast; ring
    rw [List.getElem?_map, List.getElem?_range (by norm_num), Option.map_some, this]
  · intro h he
    apply h
    unfold axis at he
    push_cast at he
    linarith

/-- An experiment without one of the three gates cannot be simulated. -/
theorem line_simulation_gates (v : List (String × ℝ)) (m : LineOptions)
    (h : v.lookup "SDB1" = none ∨ v.lookup "N" = none ∨ v.lookup "SDB2" = none) : ss1d v m = .error .keyError := by
  simp only [ss1d, voltage, bind, Except.bind, pure, Except.pure]
  cases h1 : v.lookup "SDB1" <;> cases h2 : v.lookup "N" <;> cases h3 : v.lookup "SDB2" <;> simp_all

/-- The voltage in V of the point `k` of `n` of one axis of the simulated two-dimensional scan around `c`. -/
noncomputable def simulated (c : ℝ) (n k : Nat) : ℝ := axis c 5e-3 n k

theorem simulated_mV (c : ℝ) (n k : Nat) :
    -5 + 1e3 * c + k * ((5 + 1e3 * c - (-5 + 1e3 * c)) / ((n : ℝ) - 1)) = 1e3 * simulated c n k := by
  unfold simulated axis
  ring

theorem ss2d_get {v : List (String × ℝ)} {gate1 gate2 : String} {g1 g2 : ℝ} (h1 : v.lookup gate1 = some g1)
    (h2 : v.lookup gate2 = some g2) : ∃ data, ss2d gate1 gate2 v = .ok data ∧ data.length = 20 ∧
      ∀ i j, i < 20 → j < 104 → ∃ row, data[i]? = some row ∧ row.length = 104 ∧
        row[j]? = some ((1 + 1e3 * simulated g1 20 i) *
          (1 - 0.1 * |1e3 * simulated g2 104 j - 1e3 * g2| - 0.1 * |1e3 * simulated g1 20 i - 1e3 * g1|) *
          Real.sin (1e3 * simulated g2 104 j + 1e3 * simulated g1 20 i)) := by
  refine ⟨(linspaceList (-5 + 1e3 * g1) (5 + 1e3 * g1) 20).map fun y => (linspaceList (-5 + 1e3 * g2) (5 + 1e3 * g2) 104).map fun x =>
    (1 + y) * (1 - 0.1 * |x - 1e3 * g2| - 0.1 * |y - 1e3 * g1|) * Real.sin (x + y),
    by simp only [ss2d, voltage, h1, h2, bind, Except.bind, pure, Except.pure], by simp [linspaceList], fun i j hi hj => ?_⟩
  refine ⟨_, by rw [List.getElem?_map, linspace_get _ _ _ _ hi, Option.map_some], by simp [linspaceList], ?_⟩
  rw [List.getElem?_map, linspace_get _ _ _ _ hj, Option.map_some, simulated_mV, simulated_mV]

/-- **C191**, two-dimensional scans: the points of the simulated scan are 5 mV to both sides of the present voltages of both gates, and the datum
of each point depends on the voltages of the point and on those where the scan was started. -/
theorem grid_simulation_partial (v : List (String × ℝ)) (gate1 gate2 : String) (g1 g2 : ℝ) (h1 : v.lookup gate1 = some g1)
    (h2 : v.lookup gate2 = some g2) : ∃ data, ss2d gate1 gate2 v = .ok data ∧ data.length = 20 ∧
      ∀ i j, i < 20 → j < 104 → ∃ row, data[i]? = some row ∧ row.length = 104 ∧
        ∃ y x, y = axis g1 5e-3 20 i ∧ x = axis g2 5e-3 104 j ∧ row[j]? = some ((1 + 1e3 * y) *
          (1 - 0.1 * |1e3 * x - 1e3 * g2| - 0.1 * |1e3 * y - 1e3 * g1|) * Real.sin (1e3 * x + 1e3 * y)) := by
  obtain ⟨data, h, hl, hd⟩ := ss2d_get h1 h2
  refine ⟨data, h, hl, fun i j hi hj => ?_⟩
  obtain ⟨row, a, b, c⟩ := hd i j hi hj
  exact ⟨row, a, b, _, _, rfl, rfl, c⟩

/-- **C191** is false for two-dimensional scans whose range is not 5 mV (15 mV in the tutorial, 10 mV is the default of SensingDot2D): the distance of
a point from the present voltage is taken by the evaluator for `range / 5 mV` times of what it is in the simulation, on both axes. -/
theorem grid_range_refuted (c r : ℝ) (n i : Nat) :
    axis c r n i - c = r / 5e-3 * (simulated c n i - c) ∧
    (r ≠ 5e-3 → simulated c n i ≠ c → axis c r n i ≠ simulated c n i) := by
  have h : axis c r n i - c = r / 5e-3 * (simulated c n i - c) := by
    unfold simulated axis
    ring
  refine ⟨h, fun hr hc he => ?_⟩
  rw [he] at h
  have h0 : simulated c n i - c ≠ 0 := sub_ne_zero.2 hc
  have : r / 5e-3 = 1 := by
    have h1 : (r / 5e-3) * (simulated c n i - c) = 1 * (simulated c n i - c) := by rw [← h, one_mul]
    exact mul_right_cancel₀ h0 h1
  apply hr
  have := (div_eq_one_iff_eq (by norm_num : (5e-3 : ℝ) ≠ 0)).1 this
  exact this

/-- **C191** is false for two-dimensional scans of any range: there is no device, that is, no signal as function of the two voltages, whose scans
they are.  The same voltages give different data in scans that start at different voltages. -/
theorem grid_device_refuted (gate1 gate2 : String) (hne : gate1 ≠ gate2) : ¬ ∃ signal : ℝ → ℝ → ℝ, ∀ (g1 g2 : ℝ) (i j : Nat), i < 20 → j < 104 →
    ∃ data row, ss2d gate1 gate2 [(gate1, g1), (gate2, g2)] = .ok data ∧ data[i]? = some row ∧
      row[j]? = some (signal (simulated g1 20 i) (simulated g2 104 j)) := by
  rintro ⟨S, hS⟩
  have key : ∀ (g1 g2 : ℝ) (i j : Nat), i < 20 → j < 104 → S (simulated g1 20 i) (simulated g2 104 j) =
      (1 + 1e3 * simulated g1 20 i) *
          (1 - 0.1 * |1e3 * simulated g2 104 j - 1e3 * g2| - 0.1 * |1e3 * simulated g1 20 i - 1e3 * g1|) *
          Real.sin (1e3 * simulated g2 104 j + 1e3 * simulated g1 20 i) := by
    intro g1 g2 i j hi hj
    obtain ⟨data, row, e1, e2, e3⟩ := hS g1 g2 i j hi hj
    have l1 : ([(gate1, g1), (gate2, g2)] : List (String × ℝ)).lookup gate1 = some g1 := by simp [List.lookup]
    have l2 : ([(gate1, g1), (gate2, g2)] : List (String × ℝ)).lookup gate2 = some g2 := by
      have : (gate2 == gate1) = false := by simpa using hne.symm
      simp [List.lookup, this]
    obtain ⟨data', f1, -, f2⟩ := ss2d_get l1 l2
    obtain ⟨row', f3, -, f4⟩ := f2 i j hi hj
    rw [e1] at f1
    cases f1
    rw [e2] at f3
    cases f3
    rw [e3] at f4
    exact Option.some.inj f4
  have A := key 11e-3 0 0 1 (by norm_num) (by norm_num)
  have B := key 11e-3 (10e-3 / 103) 0 0 (by norm_num) (by norm_num)
  have hx : simulated (10e-3 / 103) 104 0 = simulated 0 104 1 := by
    unfold simulated axis; norm_num
  rw [hx] at B
  rw [A] at B
  have hy : simulated 11e-3 20 0 = 6e-3 := by unfold simulated axis; norm_num
  have hx' : simulated 0 104 1 = -5e-3 + 10e-3 / 103 := by unfold simulated axis; norm_num
  rw [hy, hx'] at B
  have hs : 0 < Real.sin (1e3 * (-5e-3 + 10e-3 / 103) + 1e3 * 6e-3) := by
    apply Real.sin_pos_of_pos_of_lt_pi
    · norm_num
    · have := Real.pi_gt_three
      norm_num
      linarith
  have B' := mul_right_cancel₀ hs.ne' B
  rw [abs_of_neg (by norm_num), abs_of_neg (by norm_num : (1e3 * (-5e-3 + 10e-3 / 103) - 1e3 * (10e-3 / 103) : ℝ) < 0),
    abs_of_neg (by norm_num : (1e3 * 6e-3 - 1e3 * 11e-3 : ℝ) < 0)] at B'
  norm_num at B'

/-- With all gates at zero: the scan of the tutorial with a range of 15 mV (setup_tutorial.ipynb) takes a point 5 mV away for one 15 mV away. -/
example : ([("N", 0), ("SDB1", 0), ("SDB2", 0)] : List (String × ℝ)).lookup "SDB2" = some 0 ∧
    simulated 0 104 103 = 5e-3 ∧ axis 0 15e-3 104 103 = 15e-3 := by
  refine ⟨by simp [List.lookup], ?_, ?_⟩
  · unfold simulated axis; norm_num
  · unfold axis; norm_num

end Qtune.ScanSim
