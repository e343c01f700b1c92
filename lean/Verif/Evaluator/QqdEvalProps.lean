import Verif.Evaluator.QqdEvalModel
import Verif.Evaluator.QqdProps

/-!
# C173: the evaluators of quadruple dots return a value for each of their parameters
-/

namespace Qtune.Evaluator

/-! ## Specification -/

/-- `evaluate` returned, for the parameters in their order, these values and variances. -/
def Returns (r : Except PyErr (Series × Series)) (params : List String) (values variances : List Val) : Prop :=
  ∃ v w : Series, r = .ok (v, w) ∧ v.index = params ∧ w.index = params ∧ v.map Prod.snd = values ∧ w.map Prod.snd = variances

/-! ## Lemmas -/

theorem scalarSeries_index (v : Val) (l : List String) : (scalarSeries v l).index = l := by
  induction l with
  | nil => rfl
  | cons a l ih => simpa [scalarSeries, Series.index] using ih

theorem scalarSeries_values (v : Val) (l : List String) : (scalarSeries v l).map Prod.snd = List.replicate l.length v := by
  induction l with
  | nil => rfl
  | cons a l ih => simpa [scalarSeries, List.replicate_succ] using ih

theorem both_returns {vs ws : List Val} {params : List String} (hv : vs.length = params.length) (hw : ws.length = params.length) :
    Returns (both (listSeries vs params) (listSeries ws params)) params vs ws := by
  refine ⟨params.zip vs, params.zip ws, by simp [both, listSeries, hv, hw, Except.bind, Except.map], ?_, ?_, ?_, ?_⟩
  · exact List.map_fst_zip (by omega)
  · exact List.map_fst_zip (by omega)
  · exact List.map_snd_zip (by omega)
  · exact List.map_snd_zip (by omega)

theorem both_raises {vs ws : List Val} {params : List String} (hv : vs.length ≠ params.length) :
    both (listSeries vs params) (listSeries ws params) = .error .valueError := by
  simp [both, listSeries, hv, Except.bind]

/-! ## C173 -/

/-- **C173**, evaluators of one quantity: `QQDLine`, `QQDLead` and `QQDDistTP` return it, with its variance, under each of their parameters, whatever
their number.  The distance of the triple points is the euclidean one. -/
theorem qqd_one_quantity (params : List String) (error ref : ℝ) (lo hi : EReal) (widths : List Val) (value residuals : Val)
    (right left : List ℝ) (hl : right.length = left.length) :
    Returns (lineEvaluate params lo hi widths) params (List.replicate params.length (lineProcess lo hi widths).1)
      (List.replicate params.length (lineProcess lo hi widths).2) ∧
    Returns (leadEvaluate params error ref lo hi value residuals) params
      (List.replicate params.length (leadProcess error ref lo hi value residuals).1)
      (List.replicate params.length (leadProcess error ref lo hi value residuals).2) ∧
    ∃ d, 0 ≤ d ∧ d ^ 2 = ((right.zip left).map fun p => (p.1 - p.2) ^ 2).sum ∧
      Returns (distEvaluate params error right left) params (List.replicate params.length (some d)) (List.replicate params.length (some error)) := by
  refine ⟨⟨_, _, rfl, scalarSeries_index _ _, scalarSeries_index _ _, scalarSeries_values _ _, scalarSeries_values _ _⟩,
    ⟨_, _, rfl, scalarSeries_index _ _, scalarSeries_index _ _, scalarSeries_values _ _, scalarSeries_values _ _⟩,
    Real.sqrt ((right.zipWith (· - ·) left).map (· ^ 2)).sum, Real.sqrt_nonneg _, ?_, ?_⟩
  · rw [Real.sq_sqrt]
    · rw [← List.map_uncurry_zip_eq_zipWith, List.map_map]; rfl
    · refine List.sum_nonneg fun x hx => ?_
      obtain ⟨y, _, rfl⟩ := List.mem_map.1 hx
      positivity
  · rw [distEvaluate, if_pos hl]
    exact ⟨_, _, rfl, scalarSeries_index _ _, scalarSeries_index _ _, scalarSeries_values _ _, scalarSeries_values _ _⟩

/-- **C173**, evaluators of several quantities: `QQDSensor1D` has exactly two parameters, position and absolute value of the slope, `QQDSensor2D`
exactly three, and `QQDCharge` as many as there are positions, or any number if there is one.  With any other number of parameters
`evaluate` raises `ValueError`, after the measurement.  The sensors have no variances. -/
theorem qqd_several_quantities (params : List String) (x y slope : Val) (error : ℝ) (positions : List Val) :
    (params.length = 2 → Returns (sensor1DEvaluate params x slope) params [x, Val.abs slope] [none, none]) ∧
    (params.length ≠ 2 → sensor1DEvaluate params x slope = .error .valueError) ∧
    (params.length = 3 → Returns (sensor2DEvaluate params x y slope) params [x, y, Val.abs slope] [none, none, none]) ∧
    (params.length ≠ 3 → sensor2DEvaluate params x y slope = .error .valueError) ∧
    (params.length = positions.length →
      Returns (chargeEvaluate params error positions) params positions (List.replicate params.length (some error))) ∧
    (∀ v, positions = [v] → Returns (chargeEvaluate params error positions) params (List.replicate params.length v)
      (List.replicate params.length (some error))) ∧
    (params.length ≠ positions.length → positions.length ≠ 1 → chargeEvaluate params error positions = .error .valueError) := by
  have one : ∀ v, Returns (chargeEvaluate params error [v]) params (List.replicate params.length v)
      (List.replicate params.length (some error)) := fun v =>
    ⟨_, _, rfl, scalarSeries_index _ _, scalarSeries_index _ _, scalarSeries_values _ _, scalarSeries_values _ _⟩
  refine ⟨fun h => both_returns (by simp [h]) (by simp [h]), fun h => both_raises (by simpa using Ne.symm h),
    fun h => both_returns (by simp [h]) (by simp [h]), fun h => both_raises (by simpa using Ne.symm h), fun h => ?_,
    fun v hv => by rw [hv]; exact one v, fun h h1 => ?_⟩
  · match positions, h with
    | [v], h =>
      have := one v
      rwa [show List.replicate params.length v = [v] by rw [h]; rfl] at this
    | [], h =>
      have := both_returns (vs := []) (ws := []) (params := params) (by simp [h]) (by simp [h])
      rw [chargeEvaluate]
      · simpa [h] using this
      · rintro v ⟨⟩
    | a :: b :: l, h =>
      have := both_returns (vs := a :: b :: l) (ws := (a :: b :: l).map fun _ => some error) (params := params) (by simp [h]) (by simp [h])
      rw [chargeEvaluate]
      · rw [List.map_const', ← h] at this ⊢; exact this
      · rintro v ⟨⟩
  · match positions, h, h1 with
    | [], h, _ =>
      rw [chargeEvaluate]
      · exact both_raises fun e => h e.symm
      · rintro v ⟨⟩
    | a :: b :: l, h, _ =>
      rw [chargeEvaluate]
      · exact both_raises fun e => h e.symm
      · rintro v ⟨⟩

/-! ## Examples -/

/-- A sensor with two parameters, and charge positions for two of three parameters. -/
example : Returns (sensor1DEvaluate ["position", "slope"] (some 3) (some (-2))) ["position", "slope"] [some 3, some 2] [none, none] ∧
    chargeEvaluate ["a", "b", "c"] 1 [some 1, some 2] = .error .valueError := by
  have h := qqd_several_quantities ["position", "slope"] (some 3) none (some (-2)) 1 []
  have h' := qqd_several_quantities ["a", "b", "c"] none none none 1 [some 1, some 2]
  refine ⟨?_, h'.2.2.2.2.2.2 (by simp) (by simp)⟩
  have := h.1 rfl
  simpa [Val.abs] using this

/-- The distance of triple points at (3, 4) and (0, 0). -/
example : ∃ d, 0 ≤ d ∧ d ^ 2 = (25 : ℝ) ∧ Returns (distEvaluate ["d"] 1 [3, 4] [0, 0]) ["d"] [some d] [some 1] := by
  obtain ⟨_, _, d, h0, h1, h2⟩ := qqd_one_quantity ["d"] 1 1 ⊥ ⊤ [] none none [3, 4] [0, 0] rfl
  refine ⟨d, h0, ?_, h2⟩
  rw [h1]; norm_num

end Qtune.Evaluator
