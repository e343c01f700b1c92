import Verif.Newton.PropsProtocol

/-!
# Properties of the Newton solver: the step after an update

`newton_step_meets_set_points` speaks about the position and the values that the solver has stored.
Here they are the ones given to the last `update_after_step`.
-/

namespace Qtune.Newton

open Qtune.Tuner (Volt)

variable {E ι : Type} [DecidableEq ι]

/-- What `update_after_step` leaves of the target, the gates, the position and the values. -/
theorem update_ok {I : EstI E ι} {v : Volt ι} {values variances : Series} {s s' : State E ι}
    (h : update I v values variances s = (s', .ok ())) :
    s'.target = s.target ∧ s'.gates = s.gates ∧ s'.pos = v ∧
      s'.values = s.values.index.map fun l => (l, values.val l) := by
  unfold update at h
  rcases hsel : values.select s.values.index with err | vals
  · rw [hsel] at h; cases h
  · rw [hsel] at h
    have hvals := Series.select_ok hsel
    simp only at h
    rcases hfeed : feed I s.target v s.ests vals (variances.map Prod.snd) with ⟨es, res⟩
    rw [hfeed] at h
    rcases res with err | _
    · cases h
    · simp only [Prod.mk.injEq, and_true] at h
      subst h
      exact ⟨rfl, rfl, rfl, hvals⟩

theorem val_map (names : List String) (f : String → Val) (l : String) (hl : l ∈ names) :
    Series.val (names.map fun l => (l, f l)) l = f l := by
  induction names with
  | nil => cases hl
  | cons a names ih =>
    by_cases h : l = a
    · subst h
      simp [Series.val, List.lookup_cons]
    · have : l ∈ names := by simpa [h] using hl
      have := ih this
      simp only [Series.val, List.map_cons, List.lookup_cons] at this ⊢
      rw [beq_eq_false_iff_ne.2 h]
      exact this

/-- **C28**, after an update.  The solver has been told the values `c` at the voltages `p`.  If then no
estimator requests a measurement and the gradients `G` are linearly independent on the gates, the
suggestion is a step `x` from `p` on exactly the gates of the solver; to first order each parameter moves
from `c` to its set point `d`, and no step with this property is shorter. -/
theorem newton_step_after_update {m : Nat} {I : EstI E ι} {lstsq : Lstsq ι}
    (hl : LstsqSpec lstsq) {s s' : State E ι} (hidx : s.values.index = s.target.names)
    {p : ι → ℝ} {values variances : Series}
    (hup : update I (fun i => some (p i)) values variances s = (s', .ok ()))
    {G : Fin m → ι → ℝ} (hsize : s.target.length = m) (hm : m ≠ 0)
    (hquiet : ∀ re ∈ s.target.zip s'.ests, re.1.desired ≠ none →
      ∀ tj, I.require s.gates tj re.2 = (re.2, .ok none))
    (hgrad : s'.ests.map I.estimate = List.ofFn fun k => some fun i => some (G k i))
    (hrank : FullRowRank s.gates G) (tuned : List String) (c d : Fin m → ℝ)
    (hd : ∀ (k : Fin m) (r : Row), s.target[k]? = some r →
      r.desired = some (d k) ∧ values.val r.name = some (c k)) :
    ∃ x : ι → ℝ,
      Newton.suggest I lstsq tuned s' =
        (s', .ok fun i => if i ∈ s.gates then some (some (p i + x i)) else none) ∧
      (∀ k, c k + change s.gates (G k) x = d k) ∧
      ∀ y : ι → ℝ, (∀ k, c k + change s.gates (G k) y = d k) →
        lengthSq s.gates x ≤ lengthSq s.gates y := by
  obtain ⟨ht, hg, hp, hv⟩ := update_ok hup
  rw [← hg]
  refine newton_step_meets_set_points hl (s := s') (p := p) (G := G)
    ⟨by rw [ht]; exact hsize, hp, by rw [ht, hg]; exact hquiet, hgrad, by rw [hg]; exact hrank⟩ hm tuned
    c d ?_
  intro k r hr
  rw [ht] at hr
  obtain ⟨h1, h2⟩ := hd k r hr
  refine ⟨h1, ?_⟩
  have hmem : r.name ∈ s.target.names := List.mem_map_of_mem (List.mem_of_getElem? hr)
  rw [hv, hidx, val_map _ values.val _ hmem]
  exact h2

/-- A case that meets the hypotheses: the solver of `sample` is told the value 2 at (7, 9), the set point
is 5. -/
example : ∃ (lstsq : Lstsq (Fin 2)) (s' : State (Option (Fin 2 → Val) × List (Val × Val)) (Fin 2))
    (x : Fin 2 → ℝ),
    update (fixedI (Fin 2)) (fun i => some (![7, 9] i)) [("a", some 2)] [("a", some 1)] sample =
      (s', .ok ()) ∧
    suggest (fixedI (Fin 2)) lstsq [] s' =
      (s', .ok fun i => if i ∈ sample.gates then some (some (![7, 9] i + x i)) else none) ∧
    2 + change sample.gates ![3, -2] x = 5 := by
  obtain ⟨lstsq, hl⟩ := exists_lstsq (Fin 2)
  have hup : update (fixedI (Fin 2)) (fun i => some (![7, 9] i)) [("a", some 2)] [("a", some 1)] sample =
      (⟨sample.target, [(some ![some 3, some (-2)], [(some 2, some 1)])], [0, 1],
        fun i => some (![7, 9] i), [("a", some 2)]⟩, .ok ()) := by
    simp [update, Series.select, Series.index, Series.val, List.lookup, feed, Target.row?, plainRow,
      sample, fixedI]
  obtain ⟨x, h1, h2, -⟩ := newton_step_after_update hl (G := fun _ : Fin 1 => ![3, -2]) rfl hup rfl
    one_ne_zero (fun _ _ _ _ => rfl) sample_ready.gradients sample_ready.rank [] (fun _ => 2)
    (fun _ => 5) (by
      intro k r hr
      obtain rfl : k = 0 := Subsingleton.elim _ _
      simp only [sample, Fin.coe_ofNat_eq_mod, Nat.zero_mod, List.getElem?_cons_zero,
        Option.some.injEq, Fin.getElem?_fin] at hr
      subst hr
      exact ⟨rfl, rfl⟩)
  exact ⟨lstsq, _, x, hup, h1, h2 0⟩

end Qtune.Newton
