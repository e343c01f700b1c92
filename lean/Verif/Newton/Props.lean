import Verif.Newton.Lemmas

/-!
# Properties of the Newton solver

`change gates g x` (`Spec`) is the first order change of a parameter with gradient `g` under the
step `x`.
-/

namespace Qtune.Newton

variable {E ι : Type} [DecidableEq ι]

/-- The situation in which `suggest` makes a Newton step: the estimators of parameters with a set
point require nothing, all gradients and the position are known, and the gradients are linearly
independent on the gates. -/
structure Ready {m : Nat} (I : EstI E ι) (s : State E ι) (p : ι → ℝ) (G : Fin m → ι → ℝ) : Prop where
  size : s.target.length = m
  pos : s.pos = fun i => some (p i)
  quiet : ∀ re ∈ s.target.zip s.ests, re.1.desired ≠ none →
    ∀ tj, I.require s.gates tj re.2 = (re.2, .ok none)
  gradients : s.ests.map I.estimate = List.ofFn fun k => some fun i => some (G k i)
  rank : FullRowRank s.gates G

/-- What `suggest` does in this situation. -/
theorem Ready.suggest {m : Nat} {I : EstI E ι} {lstsq : Lstsq ι} (hl : LstsqSpec lstsq)
    {s : State E ι} {p : ι → ℝ} {G : Fin m → ι → ℝ} (h : Ready I s p G) (hm : m ≠ 0)
    (tuned : List String) :
    ∃ x : ι → ℝ,
      Newton.suggest I lstsq tuned s =
        (s, .ok fun i => if i ∈ s.gates then some (some (p i + x i)) else none) ∧
      (∀ (k : Fin m) (r : Row), s.target[k]? = some r →
        change s.gates (G k) x = requiredDiff r.desired (s.values.val r.name)) ∧
      ∀ y : ι → ℝ, (∀ (k : Fin m) (r : Row), s.target[k]? = some r →
        change s.gates (G k) y = requiredDiff r.desired (s.values.val r.name)) →
        lengthSq s.gates x ≤ lengthSq s.gates y := by
  obtain ⟨T, ests, gates, pos, values⟩ := s
  have hsize := h.size
  have hpos := h.pos
  have hquiet := h.quiet
  have hgr := h.gradients
  have hrank := h.rank
  simp only at hsize hpos hquiet hgr hrank ⊢
  subst hsize
  let b : Fin T.length → ℝ := fun k => requiredDiff T[k].desired (values.val T[k].name)
  have hdiff : (T.map fun r => requiredDiff r.desired (values.val r.name)) = List.ofFn b := by
    apply List.ext_getElem
    · simp
    · intro i h1 h2; simp [b]
  have hlen : ests.length = T.length := by
    have := congrArg List.length hgr
    simpa using this
  obtain ⟨x, hx, hls⟩ := hl gates (List.ofFn G) (List.ofFn b) (by simp)
  obtain ⟨hsol, hshort⟩ := hls.solves hrank
  refine ⟨x, ?_, ?_, ?_⟩
  · obtain ⟨tj, htj⟩ := tunedJacobian_ok I tuned ⟨T, ests, gates, pos, values⟩ (by
      intro e he
      have : I.estimate e ∈ ests.map I.estimate := List.mem_map_of_mem he
      rw [hgr] at this
      obtain ⟨k, hk⟩ := (List.mem_ofFn' _ _).1 this
      rw [← hk]
      simp)
    have hask := ask_none I gates tj (T.zip ests) (fun re hre hd => hquiet re hre hd tj)
    have hsnd : (T.zip ests).map Prod.snd = ests := List.map_snd_zip (by omega)
    have hconcat : concat (ests.map I.estimate) =
        .ok ((List.ofFn G).map fun g i => some (g i)) := by
      have := concat_some ((List.ofFn G).map fun g i => some (g i)) (by simpa using hm)
      rw [hgr, ← this]
      simp [List.map_ofFn, Function.comp_def]
    unfold Newton.suggest
    rw [htj]
    simp only [hask, hsnd]
    unfold newtonStep
    simp only [hdiff, hconcat]
    rw [if_neg (by simp), hx]
    simp only [hpos]
    rfl
  · intro k r hr
    have : T[k] = r := by
      have hk : T[k.1]? = some r := hr
      rw [List.getElem?_eq_getElem k.2] at hk
      exact Option.some.inj hk
    rw [hsol k, ← this]
  · intro y hy
    apply hshort
    intro k
    exact hy k T[k] (by simp)

/-- **C28**.  If no estimator requests a measurement, all parameters have a set point `d` and a value
`c` and the gradients `G` are linearly independent on the gates, the suggestion is a step `x` from
the position of the solver on exactly its gates; to first order each parameter moves from its
value to its set point, and no step with this property is shorter. -/
theorem newton_step_meets_set_points {m : Nat} {I : EstI E ι} {lstsq : Lstsq ι}
    (hl : LstsqSpec lstsq) {s : State E ι} {p : ι → ℝ} {G : Fin m → ι → ℝ} (h : Ready I s p G)
    (hm : m ≠ 0) (tuned : List String) (c d : Fin m → ℝ)
    (hd : ∀ (k : Fin m) (r : Row), s.target[k]? = some r →
      r.desired = some (d k) ∧ s.values.val r.name = some (c k)) :
    ∃ x : ι → ℝ,
      Newton.suggest I lstsq tuned s =
        (s, .ok fun i => if i ∈ s.gates then some (some (p i + x i)) else none) ∧
      (∀ k, c k + change s.gates (G k) x = d k) ∧
      ∀ y : ι → ℝ, (∀ k, c k + change s.gates (G k) y = d k) →
        lengthSq s.gates x ≤ lengthSq s.gates y := by
  obtain ⟨x, hs, hc, hshort⟩ := h.suggest hl hm tuned
  have key : ∀ (k : Fin m) (r : Row), s.target[k]? = some r →
      requiredDiff r.desired (s.values.val r.name) = d k - c k := by
    intro k r hr
    obtain ⟨h1, h2⟩ := hd k r hr
    rw [h1, h2]
    rfl
  have hex : ∀ k : Fin m, ∃ r, s.target[k]? = some r := by
    intro k
    exact ⟨s.target[k.1]'(by rw [h.size]; exact k.2), by simp⟩
  refine ⟨x, hs, ?_, ?_⟩
  · intro k
    obtain ⟨r, hr⟩ := hex k
    have := hc k r hr
    rw [key k r hr] at this
    linarith
  · intro y hy
    apply hshort
    intro k r hr
    rw [key k r hr]
    linarith [hy k]

/-- **C29** is false: the first order value of a parameter without set point after the Newton step
is 0 instead of its present value `c`. -/
theorem missing_set_point_refuted {m : Nat} {I : EstI E ι} {lstsq : Lstsq ι}
    (hl : LstsqSpec lstsq) {s : State E ι} {p : ι → ℝ} {G : Fin m → ι → ℝ} (h : Ready I s p G)
    (tuned : List String) (k : Fin m) (r : Row) (hr : s.target[k]? = some r)
    (hd : r.desired = none) (c : ℝ) (hc : s.values.val r.name = some c) :
    ∃ x : ι → ℝ,
      Newton.suggest I lstsq tuned s =
        (s, .ok fun i => if i ∈ s.gates then some (some (p i + x i)) else none) ∧
      c + change s.gates (G k) x = 0 := by
  have hm : m ≠ 0 := by rintro rfl; exact k.elim0
  obtain ⟨x, hs, hx, -⟩ := h.suggest hl hm tuned
  refine ⟨x, hs, ?_⟩
  rw [hx k r hr, hd, hc]
  simp [requiredDiff]

/-- **C29**, the cases in which it holds: the parameter has no value yet or its value is 0.
Missing: all other values, see `missing_set_point_refuted`. -/
theorem missing_set_point_partial {m : Nat} {I : EstI E ι} {lstsq : Lstsq ι}
    (hl : LstsqSpec lstsq) {s : State E ι} {p : ι → ℝ} {G : Fin m → ι → ℝ} (h : Ready I s p G)
    (tuned : List String) (k : Fin m) (r : Row) (hr : s.target[k]? = some r)
    (hd : r.desired = none) (hc : s.values.val r.name = none ∨ s.values.val r.name = some 0) :
    ∃ x : ι → ℝ,
      Newton.suggest I lstsq tuned s =
        (s, .ok fun i => if i ∈ s.gates then some (some (p i + x i)) else none) ∧
      change s.gates (G k) x = 0 := by
  have hm : m ≠ 0 := by rintro rfl; exact k.elim0
  obtain ⟨x, hs, hx, -⟩ := h.suggest hl hm tuned
  refine ⟨x, hs, ?_⟩
  rw [hx k r hr, hd]
  rcases hc with hc | hc <;> rw [hc] <;> simp [requiredDiff]

end Qtune.Newton
