import Verif.EndToEnd.PropsSensed
import Verif.EndToEnd.CrashRun

/-! # The gates of the sensing dot must not affect the other parameters (C151) -/

namespace Qtune.EndToEnd

open Matrix Qtune.Tuner Qtune.Gradient Qtune.Autotuner Qtune.Kalman

/-- The response `2 * RF - 4 * SD` in units of the rescaling factor. -/
theorem crosstalk_scaled (q : Vec 2) : (dotPlan (-4)).scaled 0 q = q 1 - 2 * q 0 := by
  simp [Plan.scaled, Plan.response, dotPlan, Fin.sum_univ_two]
  ring

theorem crosstalk_not_met {q : Vec 2} (hs : sampleSensor.Sensitive q) (h1 : 0 ≤ q 1) : ¬ (dotPlan (-4)).Met 0 q := by
  intro h
  have h := h 0 (1 / 10) rfl (by simp [dotPlan])
  have e : (dotPlan (-4)).response 0 q / (dotPlan (-4)).scale 0 = q 1 - 2 * q 0 := crosstalk_scaled q
  rw [e, abs_lt] at h
  rw [sampleSensor_sensitive, abs_lt] at hs
  have : (dotPlan (-4)).desired 0 = 5 := rfl
  rw [this] at h
  linarith [h.2, hs.1]

theorem crosstalk_step {q x : Vec 2} (hs : sampleSensor.Sensitive q) (h1 : 0 ≤ q 1)
    (hx : (dotPlan (-4)).Reaches 0 q x) : 0 ≤ (q + x) 1 := by
  have h := hx.own 0 rfl
  have h0 : x 0 = 0 := hx.outside 0 (by simp [dotPlan])
  rw [crosstalk_scaled] at h
  simp [dotPlan, Fin.sum_univ_two, h0] at h
  rw [sampleSensor_sensitive, abs_lt] at hs
  simp only [Pi.add_apply]
  linarith [hs.1]

variable {X : Type}

theorem crosstalk_round {I : Newton.EstI X (Fin 2)} {lstsq : Newton.Lstsq (Fin 2)} (hl : Newton.LstsqSpec lstsq)
    {G A : Fin 1 → X → Prop} (hI : ∀ k, Knows (dotPlan (-4)) I k (G k) (A k)) {lim : Nat → Val × Int}
    (hlim : (lim 0).1 = none) {q : Vec 2} {w : Sensed X 2}
    (hw : sampleSensor.Passed (dotPlan (-4)) G lim 0 q w) (hq : 0 ≤ q 1) :
    ∃ M ≥ 1, ∃ w' q', iterates (sampleSensor.hierarchy I lstsq 1 (blindOuts (-4))) M ⟨w, volts q, 1, false, none⟩ =
        .ok ⟨w', volts q', 1, false, none⟩ ∧ sampleSensor.Passed (dotPlan (-4)) G lim 0 q' w' ∧ 0 ≤ q' 1 := by
  obtain ⟨hw, hdot, hsen⟩ := hw
  obtain ⟨E, hE⟩ := hw.world
  have hworld : (dotPlan (-4)).World G lim 0 w.rest E := ⟨hE.ests, hE.know, fun j hj _ => hE.idle j hj hj.ne⟩
  obtain ⟨w₁, E₁, hw₁, ⟨hm, -⟩ | ⟨-, hcall⟩⟩ := Sensor.evaluate_tuner (dotPlan_valid (-4)) (blindOuts_eq (-4)) hI
    (lstsq := lstsq) Nat.zero_lt_one hworld (hE.idle 0 Nat.zero_lt_one Nat.one_ne_zero.symm) hdot hsen hw.met
  · exact absurd hm (crosstalk_not_met hsen hq)
  · obtain ⟨x, hx, -, hs⟩ := (dotPlan (-4)).newton (dotPlan_valid (-4)) hl hI Nat.zero_lt_one q
    have hr := hw₁.rest
    have hnext : ∀ tuned, nextVoltages (Newton.solver I lstsq) tuned (w₁.rest.get 0) =
        (w₁.rest.get 0, .ok (volts (q + x))) :=
      fun tuned => (dotPlan (-4)).next_short (t := w₁.rest.get 0) hx.outside hr.tuner.lastVoltage hr.tuner.lastFailed
        (hs q (w₁.rest.get 0) E₁ tuned ⟨hr.tuner.target, hr.tuner.gates, hr.tuner.index, hr.tuner.lastIndex,
          hr.tuner.pos, hr.tuner.values, hr.tuner.lastVoltage, hr.tuner.lastFailed⟩ hr.world.ests hr.world.know
          hr.active)
        (by
          intro M hM
          have : (w₁.rest.get 0).maxStep = none := hr.limit.1.trans hlim
          rw [this] at hM
          cases hM)
    have hcalls := Sensor.suggestion_calls (D := sampleSensor) (outs := blindOuts (-4)) (q := q) Nat.zero_lt_one hnext
    obtain ⟨M, -, w₂, q₂, hit, hrest, hdot₂, hsen₂, hsame⟩ := Sensor.settle (K := 1) sampleSensor_valid (I := I)
      (lstsq := lstsq) (outs := blindOuts (-4)) (sampleSensor_settles (q + x))
      ⟨w₁.dot, w₁.rest.put 0 (w₁.rest.get 0)⟩ hw₁.dot
    refine ⟨1 + (2 + M), by omega, w₂, q₂, ?_, ⟨⟨⟨E₁, ?_⟩, fun j hj => absurd hj (Nat.not_lt_zero j)⟩, hdot₂, hsen₂⟩, ?_⟩
    · rw [iterates_add _ 1 _ _ _ hcall, iterates_add _ 2 _ _ _ hcalls]
      exact hit
    · rw [hrest]
      refine ⟨hr.world.ests, hr.world.know, fun j hj _ => ?_⟩
      obtain rfl : j = 0 := by omega
      simp only [Shared.put, Function.update_self]
      exact ⟨⟨hr.tuner.target, hr.tuner.gates, hr.tuner.index, hr.tuner.lastIndex, hr.tuner.queued⟩, hr.limit⟩
    · rw [hsame 1 (by simp [sampleSensor])]
      exact crosstalk_step hsen hq hx

/-- **C151**, the condition that the gates of the sensing dot do not affect the other parameters cannot be
dropped.  In the sample, with a parameter that depends on the gate of the sensing dot, all other hypotheses of
`sensed_hierarchy_is_tuned` hold, and there are voltages at which the dot is sensitive and the set point is
met.  But whenever the tuner of the parameter moves its gate, the dot must be moved after it and spoils what has
been won: `iterate` never raises, and the tuning is not complete after any number of calls. -/
theorem sensed_hierarchy_crosstalk_refuted {eigh : Eigh} (heigh : EighSpec eigh) {nullspace : Nullspace}
    (hnull : NullspaceSpec nullspace) {lstsq : Newton.Lstsq (Fin 2)} (hl : Newton.LstsqSpec lstsq) :
    (∀ j ∈ (dotPlan (-4)).gates 0, j ∉ sampleSensor.gates) ∧
    (∃ q, sampleSensor.Sensitive q ∧ (dotPlan (-4)).Met 0 q) ∧
    ∀ N, ∃ s, iterates (sampleSensor.hierarchy (kalmanI eigh nullspace) lstsq 1 (blindOuts (-4))) N
        (fresh (sampleSensed (-4)) (volts 0)) = .ok s ∧
      isComplete (sampleSensor.hierarchy (kalmanI eigh nullspace) lstsq 1 (blindOuts (-4))) s = false := by
  refine ⟨fun j hj => ?_, ⟨![-5, -5], ?_, ?_⟩, ?_⟩
  · simp [dotPlan] at hj
    simp [sampleSensor, hj]
  · rw [sampleSensor_sensitive]; norm_num
  · intro k tol _ ht
    rw [Subsingleton.elim k 0] at ht ⊢
    simp [dotPlan] at ht
    have e := crosstalk_scaled ![-5, -5]
    have : (dotPlan (-4)).desired 0 = 5 := rfl
    rw [show (dotPlan (-4)).response 0 ![-5, -5] / (dotPlan (-4)).scale 0 = _ from e, this, ← ht]
    norm_num
  · obtain ⟨hP, hpos, hD, hset, houts, hdot, ⟨E, hests, hE⟩, ht, hmax, -, -⟩ := sampleSensed_valid (-4)
    have hI := kalman_knows hP hpos heigh hnull (by norm_num : (0 : ℝ) < 1)
    let H := sampleSensor.hierarchy (kalmanI eigh nullspace) lstsq 1 (blindOuts (-4))
    let G : Fin 1 → Est 2 → Prop := fun k e =>
      Certain (fun i => (dotPlan (-4)).grad k i / (dotPlan (-4)).scale k) 1 e ∧
        (e.value = none ∨ Measured ((dotPlan (-4)).scaled k) e)
    let lim : Nat → Val × Int := fun _ => (none, 5)
    have hloop : ∀ N : Nat, ∃ M ≥ N, ∃ w q, iterates H M (fresh (sampleSensed (-4)) (volts 0)) =
        .ok ⟨w, volts q, 1, false, none⟩ ∧ sampleSensor.Passed (dotPlan (-4)) G lim 0 q w ∧ 0 ≤ q 1 := by
      intro N
      induction N with
      | zero =>
        obtain ⟨M, -, w, q, hit, hrest, hdot', hsen, hsame⟩ := Sensor.settle (K := 1) sampleSensor_valid
          (I := kalmanI eigh nullspace) (lstsq := lstsq) (outs := blindOuts (-4)) (sampleSensor_settles 0)
          (sampleSensed (-4)) hdot
        refine ⟨M, Nat.zero_le _, w, q, hit, ⟨⟨⟨E, ?_⟩, fun j hj => absurd hj (Nat.not_lt_zero j)⟩, hdot', hsen⟩, ?_⟩
        · rw [hrest]
          refine ⟨hests, fun k => ⟨(hE k).1, .inl (hE k).2⟩, fun j hj _ => ⟨ht j hj, ?_, rfl⟩⟩
          exact hmax j hj
        · rw [hsame 1 (by simp [sampleSensor])]
          simp
      | succ N ih =>
        obtain ⟨M, hM, w, q, hit, hw, hq⟩ := ih
        obtain ⟨L, hL, w', q', hit', hw', hq'⟩ := crosstalk_round hl hI (lstsq := lstsq) (lim := lim) rfl hw hq
        refine ⟨M + L, by omega, w', q', ?_, hw', hq'⟩
        rw [iterates_add H M L _ _ hit]
        exact hit'
    intro N
    obtain ⟨M, hM, w, q, hit, -⟩ := hloop (N + 1)
    obtain ⟨s, hs⟩ := iterates_prefix H (j := N) (k := M - N) (by rw [Nat.add_sub_cancel' (by omega)]; exact hit)
    obtain ⟨s', hs'⟩ := iterates_prefix H (j := N + 1) (k := M - (N + 1)) (by
      rw [Nat.add_sub_cancel' (by omega)]; exact hit)
    refine ⟨s, hs, ?_⟩
    by_contra hc
    have hc : isComplete H s = true := by simpa using hc
    obtain ⟨ev, h⟩ := iterates_succ_inv H hs hs'
    have hcomp : iterate H (.ok ()) s = (s, [], .error errComplete) := by
      unfold iterate
      rw [show H.ready s.tuners s.expt s.pending = .ok true from rfl]
      simp only [hc, if_true]
    rw [hcomp] at h
    simp at h

end Qtune.EndToEnd
