import Verif.EndToEnd.KinkSpec
import Mathlib.Analysis.SpecificLimits.Basic

/-!
# End to end: a device whose slope changes

The finite difference estimators measure the gradients once.  On a device with a kink this decides whether the
tuning ends.
-/

namespace Qtune.EndToEnd

open Qtune.Tuner Qtune.Gradient Qtune.Autotuner

theorem kinked_low {b x : ℝ} (h : x ≤ 1) : kinked b x = x := if_pos h

theorem kinked_high {b x : ℝ} (h : 1 ≤ x) : kinked b x = 1 + b * (x - 1) := by
  unfold kinked
  split_ifs with h'
  · have : x = 1 := le_antisymm h' h
    rw [this]; ring
  · rfl

/-- The response has no gaps and no steps, and it rises everywhere. -/
theorem kinked_continuous (b : ℝ) : Continuous (kinked b) := by
  unfold kinked
  refine Continuous.if_le continuous_id (by fun_prop) continuous_id continuous_const ?_
  intro x hx
  rw [hx]; simp

theorem kinked_strictMono {b : ℝ} (hb : 0 < b) : StrictMono (kinked b) := by
  intro x y h
  rcases le_total x 1 with hx | hx <;> rcases le_total y 1 with hy | hy
  · rwa [kinked_low hx, kinked_low hy]
  · rw [kinked_low hx, kinked_high hy]
    rcases hy.eq_or_lt with hy | hy
    · rw [← hy] at h ⊢; linarith
    · nlinarith
  · linarith
  · rw [kinked_high hx, kinked_high hy]
    nlinarith

variable {X : Type} {n m : Nat}

/-- The calls before the evaluation do not complete the tuning. -/
theorem cycle_before {S : Setup n m} {I : Newton.EstI X (Fin n)} {lstsq : Newton.Lstsq (Fin n)} {t t' : OneTuner X n}
    {q q' : Vec n} (hnext : nextVoltages (Newton.solver I lstsq) [] t = (t', .ok (volts q'))) {M : Nat} (hM : M < 3) :
    ∃ s', iterates (hierarchy I lstsq S.outs) M ⟨t, volts q, 0, true, none⟩ = .ok s' ∧
      isComplete (hierarchy I lstsq S.outs) s' = false := by
  let H := hierarchy I lstsq S.outs
  have h1 : (iterate H (.ok ()) ⟨t, volts q, 0, true, none⟩).1 =
      ⟨t', volts q, 0, false, some (volts q')⟩ ∧
      (iterate H (.ok ()) ⟨t, volts q, 0, true, none⟩).2.2 = .ok () := by
    have hn : H.nextVolt 0 (H.tunedParams t 0) t = (t', .ok (volts q')) := hnext
    simp [iterate, H, hierarchy, isComplete, hnext, finish]
  have h2 : (iterate H (.ok ()) ⟨t', volts q, 0, false, some (volts q')⟩).1 =
      ⟨t', volts q', 0, false, none⟩ ∧
      (iterate H (.ok ()) ⟨t', volts q, 0, false, some (volts q')⟩).2.2 = .ok () := by
    simp [iterate, H, hierarchy, isComplete, finish, volts]
  have step : ∀ (N : Nat) (s s' : Autotuner.State (OneTuner X n) (Volt (Fin n)) (Volt (Fin n))),
      (iterate H (.ok ()) s).1 = s' ∧ (iterate H (.ok ()) s).2.2 = .ok () →
      iterates H (N + 1) s = iterates H N s' := by
    rintro N s s' ⟨ha, hb⟩
    conv_lhs => unfold iterates
    rcases hi : iterate H (.ok ()) s with ⟨s₁, ev, r⟩
    rw [hi] at ha hb
    simp only at ha hb
    subst ha hb
    rfl
  interval_cases M
  · exact ⟨_, rfl, rfl⟩
  · exact ⟨_, step 0 _ _ h1, rfl⟩
  · exact ⟨_, (step 1 _ _ h1).trans (step 0 _ _ h2), rfl⟩

/-- A cycle that does not meet the set points delays the decision. -/
theorem never_of_cycle {S : Setup n m} {I : Newton.EstI X (Fin n)} {lstsq : Newton.Lstsq (Fin n)}
    {t t' t'' : OneTuner X n} {q q' : Vec n}
    (hnext : nextVoltages (Newton.solver I lstsq) [] t = (t', .ok (volts q')))
    (hev : isTuned (Newton.solver I lstsq) (S.outs (volts q')) (volts q') t' = (t'', .ok false)) (N : Nat)
    (h : ∀ M < N, ∃ s', iterates (hierarchy I lstsq S.outs) M ⟨t'', volts q', 0, true, none⟩ = .ok s' ∧
      isComplete (hierarchy I lstsq S.outs) s' = false) :
    ∃ s', iterates (hierarchy I lstsq S.outs) N ⟨t, volts q, 0, true, none⟩ = .ok s' ∧
      isComplete (hierarchy I lstsq S.outs) s' = false := by
  rcases Nat.lt_or_ge N 3 with hN | hN
  · exact cycle_before hnext hN
  · obtain ⟨M, rfl⟩ := Nat.exists_eq_add_of_le hN
    obtain ⟨s', hs', hc⟩ := h M (by omega)
    refine ⟨s', ?_, hc⟩
    rw [iterates_add _ 3 M _ _ (cycle (q := q) hnext hev)]
    exact hs'

/-- The setup of this file: one gate, one parameter, a response with a kink. -/
structure Kinked (S : Setup 1 1) (b : ℝ) : Prop where
  sound : S.Sound
  response : ∀ v, S.response 0 v / S.scale 0 = kinked b (v 0)

theorem len_one (x : Fin 1 → ℝ) : len x = |x 0| := by
  simp [len, Real.sqrt_sq_eq_abs]

/-- The suggestion of a Newton step with the gradient 1. -/
theorem kinked_next {S : Setup 1 1} {b : ℝ} (hS : Kinked S b) {orth : Orth 1} {lstsq : Newton.Lstsq (Fin 1)}
    (hls : Newton.LstsqSpec lstsq) {μ : Val × Int} (hμ : μ.1 = none) {E : Fin 1 → FD 1} {q : Vec 1}
    {t : OneTuner (FD 1) 1} (h : At S μ E q t) (hdone : ∀ k, Done (fun _ => 1) (E k)) :
    ∃ t', nextVoltages (Newton.solver (fdI orth) lstsq) [] t =
        (t', .ok (volts fun _ => q 0 + (S.desired 0 - kinked b (q 0)))) ∧ Base S μ E t' := by
  obtain ⟨x, hsug, hx, -⟩ := known_suggestion hS.sound hls h (G := fun _ _ => 1) (I := fdI orth)
    (fun k tj => (hdone k).silent tj) (fun k => by
      obtain ⟨C, hC⟩ := (hdone k).est
      simp [fdI, hC]) (τ := 1) one_pos (fun z => by
      rw [len_one, len_one]
      simp [comb])
  have hx0 : x 0 = S.desired 0 - kinked b (q 0) := by
    have := congrFun hx 0
    simpa [act, Setup.miss, hS.response] using this
  have hq : q + x = fun _ => q 0 + (S.desired 0 - kinked b (q 0)) := by
    funext i
    rw [Fin.eq_zero i, Pi.add_apply, hx0]
  rw [hq] at hsug
  exact suggestion (E' := E) h (by rw [hμ]; simp) hsug

/-- Measuring the gradient below the kink gives 1. -/
theorem secant_low {S : Setup 1 1} {b : ℝ} (hS : Kinked S b) {c : Vec 1} {x : Vec 1} (hx : x 0 ≠ 0) (hc : c 0 ≤ 1)
    (hcx : c 0 + x 0 ≤ 1) {g : Vec 1} (hg : ∑ i, g i * x i = S.scaled 0 (c + x) - S.scaled 0 c) : g = fun _ => 1 := by
  unfold Setup.scaled at hg
  rw [hS.response, hS.response, Pi.add_apply, kinked_low hcx, kinked_low hc] at hg
  simp only [Fin.sum_univ_one, add_sub_cancel_left] at hg
  funext i
  rw [Fin.eq_zero i]
  exact mul_right_cancel₀ hx (by rw [hg, one_mul])

/-- The set point is missed below the kink. -/
theorem missed_low {S : Setup 1 1} {b : ℝ} (hS : Kinked S b) {tol : ℝ} (htol : (S.row 0).tolerance = some tol)
    (hfar : tol ≤ S.desired 0 - 1) {q : Vec 1} (hq : q 0 ≤ 1) : ¬ SetPointsMet S q := by
  intro h
  have := h 0 tol htol
  rw [hS.response, kinked_low hq] at this
  have h2 := le_abs_self (S.desired 0 - q 0)
  linarith

/-- The set point is missed at the voltage that the slope 1 suggests. -/
theorem missed_high {S : Setup 1 1} {b : ℝ} (hS : Kinked S b) (hb : 2 ≤ b) {tol : ℝ}
    (htol : (S.row 0).tolerance = some tol) (hpos : 0 < tol) (hfar : tol ≤ S.desired 0 - 1) :
    ¬ SetPointsMet S fun _ => S.desired 0 := by
  intro h
  have := h 0 tol htol
  rw [hS.response, kinked_high (by linarith)] at this
  have h2 := neg_abs_le (S.desired 0 - (1 + b * (S.desired 0 - 1)))
  nlinarith

/-- From a voltage below the kink, or from the set point itself, the tuning does not end. -/
theorem oscillates {S : Setup 1 1} {b : ℝ} (hS : Kinked S b) (hb : 2 ≤ b) {orth : Orth 1} {lstsq : Newton.Lstsq (Fin 1)}
    (hls : Newton.LstsqSpec lstsq) {μ : Val × Int} (hμ : μ.1 = none) {tol : ℝ}
    (htol : (S.row 0).tolerance = some tol) (hfar : tol ≤ S.desired 0 - 1) (N : Nat) :
    ∀ (E : Fin 1 → FD 1) (q : Vec 1) (t : OneTuner (FD 1) 1), At S μ E q t → (∀ k, Done (fun _ => 1) (E k)) →
      (q 0 ≤ 1 ∨ q = fun _ => S.desired 0) →
      ∃ s', iterates (hierarchy (fdI orth) lstsq S.outs) N ⟨t, volts q, 0, true, none⟩ = .ok s' ∧
        isComplete (hierarchy (fdI orth) lstsq S.outs) s' = false := by
  have hpos := hS.sound.tolerance 0 tol htol
  induction N using Nat.strong_induction_on with
  | _ N ih =>
  intro E q t h hdone hq
  obtain ⟨t', hnext, hbase⟩ := kinked_next hS (orth := orth) hls hμ h hdone
  obtain ⟨y, t'', b', hev, -, hAt, hb'⟩ := evaluation hS.sound (I := fdI orth) (lstsq := lstsq) hbase
    (fun _ => q 0 + (S.desired 0 - kinked b (q 0))) fun k y _ => ⟨E k, (hdone k).keeps _ _ _⟩
  have hplace : (q 0 ≤ 1 ∧ (fun _ => q 0 + (S.desired 0 - kinked b (q 0)) : Vec 1) = fun _ => S.desired 0) ∨
      q 0 + (S.desired 0 - kinked b (q 0)) ≤ 1 := by
    rcases hq with hq | hq
    · left
      refine ⟨hq, ?_⟩
      rw [kinked_low hq]
      funext _
      ring
    · right
      rw [hq, kinked_high (by linarith)]
      nlinarith
  have hmiss : ¬ SetPointsMet S fun _ => q 0 + (S.desired 0 - kinked b (q 0)) := by
    rcases hplace with ⟨-, h⟩ | h
    · rw [h]; exact missed_high hS hb htol hpos hfar
    · exact missed_low hS htol hfar h
  cases b' with
  | true => exact absurd (hb'.1 rfl) hmiss
  | false =>
    refine never_of_cycle hnext hev N fun M hM => ih M hM _ _ _ hAt (fun k => ?_) ?_
    · have : (fdI orth).update (volts fun _ => q 0 + (S.desired 0 - kinked b (q 0)))
          (some (S.scaled k fun _ => q 0 + (S.desired 0 - kinked b (q 0)))) (some (y k)) (E k) = (E k, .ok ()) :=
        (hdone k).keeps _ _ _
      rw [this]
      exact hdone k
    · rcases hplace with ⟨-, h⟩ | h
      · exact .inr h
      · exact .inl h

/-- **C128**, refuted: a continuous and strictly increasing response does not suffice for the tuning to end.  If the
slope above the voltage 1 is at least twice the slope below, the gradient has been measured below, and the set point
is above by at least the tolerance, `iterate` never raises and the tuning is never complete, however often it is
called.  There is a voltage that meets the set point exactly. -/
theorem increasing_device_is_tuned_refuted {S : Setup 1 1} {b : ℝ} (hS : Kinked S b) (hb : 2 ≤ b) {orth : Orth 1}
    (ho : OrthSpec orth) {lstsq : Newton.Lstsq (Fin 1)} (hls : Newton.LstsqSpec lstsq) {tol : ℝ}
    (htol : (S.row 0).tolerance = some tol) (hfar : tol ≤ S.desired 0 - 1) (c : Vec 1) {η : ℝ} (hη : 0 < η)
    (hc : c 0 + η ≤ 1) (t : OneTuner (FD 1) 1) (ht : InitialEven S c η t) :
    NeverComplete (hierarchy (fdI orth) lstsq S.outs) (fresh t (volts c)) ∧
      ∃ v : Vec 1, S.response 0 v / S.scale 0 = S.desired 0 := by
  have hpos := hS.sound.tolerance 0 tol htol
  constructor
  · intro N
    obtain ⟨start, hstart, hests⟩ := ht.ests
    have hcol0 := fun k y => Col.start (B := η) (η := some η) (f := S.scaled k) one_ne_zero c (fun _ => η)
      (fun _ => hη) (fun _ => le_refl _) (fun h hh i => by cases hh; rfl) (start k) (hstart k) y
    obtain ⟨y, t', b', hev, -, hAt, hb'⟩ := evaluation (μ := (t.maxStep, t.maxNumber)) (lstsq := lstsq) (I := fdI orth)
      hS.sound ⟨ht.target, hests, ht.gates, ht.index, rfl, rfl, ht.queued, ht.lastIndex⟩ c fun k y _ => by
        obtain ⟨e', he', -⟩ := hcol0 k y
        exact ⟨e', he'⟩
    cases b' with
    | true => exact absurd (hb'.1 rfl) (missed_low hS htol hfar (by linarith))
    | false =>
    have h1 : iterates (hierarchy (fdI orth) lstsq S.outs) 1 (fresh t (volts c)) =
        .ok ⟨t', volts c, 0, true, none⟩ := by
      have : (iterate (hierarchy (fdI orth) lstsq S.outs) (.ok ()) (fresh t (volts c))).1 =
          ⟨t', volts c, 0, true, none⟩ ∧
          (iterate (hierarchy (fdI orth) lstsq S.outs) (.ok ()) (fresh t (volts c))).2.2 = .ok () := by
        simp [iterate, fresh, hierarchy, isComplete, finish, hev]
      unfold iterates
      rcases hi : iterate (hierarchy (fdI orth) lstsq S.outs) (.ok ()) (fresh t (volts c)) with ⟨s₁, ev, r⟩
      rw [hi] at this
      simp only at this
      obtain ⟨rfl, rfl⟩ := this
      rfl
    cases N with
    | zero => exact ⟨_, rfl, rfl⟩
    | succ N =>
    rw [Nat.add_comm, iterates_add _ 1 N _ _ h1]
    obtain ⟨x, E', hli, hsp, hlen, hcol', t₁, hnext, hbase⟩ := request_phase hS.sound ho (lstsq := lstsq)
      (B := η) (η := some η) (f := S.scaled) (c := c) (d := fun j : Fin 0 => (j.elim0 : Vec 1)) hAt (fun j => by
        obtain ⟨e', he', hcol⟩ := hcol0 j (y j)
        have he : (fdI orth).update (volts c) (some (S.scaled j c)) (some (y j))
          (FD.new (start j) (fun _ => η) false) = _ := he'
        rw [he]
        exact hcol) one_pos linearIndependent_empty_type (fun _ _ => ⟨fun j => j.elim0, fun j => j.elim0⟩)
      (by simp [ht.maxStep]) (by simpa [len] using hη.le)
    have hx : |x 0| = η := by
      have := (hsp η rfl).1 (Fin.last 0)
      rw [Fin.snoc_last, len_one] at this
      exact this
    have hxle : c 0 + x 0 ≤ 1 := by
      have := le_abs_self (x 0)
      linarith
    have hlast := fun k y => (hcol' k).last rfl x y hli
    obtain ⟨y₂, t₂, b₂, hev₂, -, hAt₂, hb₂⟩ := evaluation hS.sound (I := fdI orth) (lstsq := lstsq) hbase (c + x)
      fun k y _ => by
        obtain ⟨e', -, he', -⟩ := hlast k y
        exact ⟨e', he'⟩
    cases b₂ with
    | true => exact absurd (hb₂.1 rfl) (missed_low hS htol hfar hxle)
    | false =>
      refine never_of_cycle hnext hev₂ N fun M _ =>
        oscillates hS hb hls ht.maxStep htol hfar M _ _ _ hAt₂ (fun k => ?_) (.inl hxle)
      obtain ⟨e', g, he', hdone, hg⟩ := hlast k (y₂ k)
      have he : (fdI orth).update (volts (c + x)) (some (S.scaled k (c + x))) (some (y₂ k)) (E' k) = _ := he'
      rw [he]
      have hk := Fin.eq_zero k
      subst hk
      have hg0 := hg (Fin.last 0)
      rw [Fin.snoc_last] at hg0
      rw [secant_low hS (by intro h0; rw [h0, abs_zero] at hx; linarith) (by linarith) hxle hg0] at hdone
      exact hdone
  · refine ⟨fun _ => 1 + (S.desired 0 - 1) / b, ?_⟩
    have hb0 : 0 < b := by linarith
    rw [hS.response, kinked_high (by have : 0 ≤ (S.desired 0 - 1) / b := div_nonneg (by linarith) hb0.le
                                     linarith)]
    field_simp
    ring

/-- Above the kink each step multiplies what is missing with `1 - b`. -/
theorem kinked_phase {S : Setup 1 1} {b : ℝ} (hS : Kinked S b) (hb0 : 0 < b) (hb : b < 2) {orth : Orth 1}
    {lstsq : Newton.Lstsq (Fin 1)} (hls : Newton.LstsqSpec lstsq) {μ : Val × Int} (hμ : μ.1 = none) {tol : ℝ}
    (htol : (S.row 0).tolerance = some tol) (N : Nat) :
    ∀ (E : Fin 1 → FD 1) (q : Vec 1) (t : OneTuner (FD 1) 1) (e : ℝ), At S μ E q t → (∀ k, Done (fun _ => 1) (E k)) →
      1 ≤ q 0 → |S.desired 0 - kinked b (q 0)| ≤ e → e ≤ S.desired 0 - 1 → |1 - b| ^ (N + 1) * e < tol →
      CompletesWithin S (fdI orth) lstsq (3 * (N + 1)) ⟨t, volts q, 0, true, none⟩ := by
  have habs : |1 - b| < 1 := by rw [abs_lt]; constructor <;> linarith
  have hstep : ∀ (q : Vec 1) (e : ℝ), 1 ≤ q 0 → |S.desired 0 - kinked b (q 0)| ≤ e → e ≤ S.desired 0 - 1 →
      1 ≤ q 0 + (S.desired 0 - kinked b (q 0)) ∧
      |S.desired 0 - kinked b (q 0 + (S.desired 0 - kinked b (q 0)))| ≤ |1 - b| * e := by
    intro q e hq he hle
    have h1 : kinked b (q 0) = 1 + b * (q 0 - 1) := kinked_high hq
    have h2 := abs_le.1 he
    have h3 : 1 ≤ q 0 + (S.desired 0 - kinked b (q 0)) := by
      rw [h1] at h2 ⊢
      have : b * (q 0 + (S.desired 0 - (1 + b * (q 0 - 1))) - 1) =
        (S.desired 0 - 1) - (1 - b) * (S.desired 0 - (1 + b * (q 0 - 1))) := by ring
      have h4 : (1 - b) * (S.desired 0 - (1 + b * (q 0 - 1))) ≤ S.desired 0 - 1 := by
        refine (le_abs_self _).trans ?_
        rw [abs_mul]
        rw [h1] at he
        have := abs_nonneg (S.desired 0 - (1 + b * (q 0 - 1)))
        have := abs_nonneg (1 - b)
        nlinarith
      have h5 : 0 ≤ b * (q 0 + (S.desired 0 - (1 + b * (q 0 - 1))) - 1) := by linarith
      have := nonneg_of_mul_nonneg_right h5 hb0
      linarith
    refine ⟨h3, ?_⟩
    have : S.desired 0 - kinked b (q 0 + (S.desired 0 - kinked b (q 0))) =
        (1 - b) * (S.desired 0 - kinked b (q 0)) := by
      rw [kinked_high h3, h1]; ring
    rw [this, abs_mul]
    exact mul_le_mul_of_nonneg_left he (abs_nonneg _)
  have hmet : ∀ (q : Vec 1), |S.desired 0 - kinked b (q 0)| < tol → SetPointsMet S q := by
    intro q h k tol' htol'
    have hk := Fin.eq_zero k
    subst hk
    rw [htol] at htol'
    cases htol'
    rw [hS.response]
    exact h
  induction N with
  | zero =>
    intro E q t e h hdone hq he hle hsmall
    obtain ⟨h1, h2⟩ := hstep q e hq he hle
    obtain ⟨t', hnext, hbase⟩ := kinked_next hS (orth := orth) hls hμ h hdone
    refine cycle_or hS.sound hnext hbase (fun k y _ => ⟨E k, (hdone k).keeps _ _ _⟩) 0 ?_
    intro y t'' _ hnot _
    refine absurd (hmet _ (lt_of_le_of_lt h2 ?_)) hnot
    simpa using hsmall
  | succ N ih =>
    intro E q t e h hdone hq he hle hsmall
    obtain ⟨h1, h2⟩ := hstep q e hq he hle
    obtain ⟨t', hnext, hbase⟩ := kinked_next hS (orth := orth) hls hμ h hdone
    have := cycle_or hS.sound (q := q) hnext hbase (fun k y _ => ⟨E k, (hdone k).keeps _ _ _⟩) (3 * (N + 1)) (by
      intro y t'' _ _ hAt
      refine ih _ _ t'' (|1 - b| * e) hAt (fun k => ?_) h1 h2 ?_ ?_
      · have : (fdI orth).update (volts fun _ => q 0 + (S.desired 0 - kinked b (q 0)))
            (some (S.scaled k fun _ => q 0 + (S.desired 0 - kinked b (q 0)))) (some (y k)) (E k) = (E k, .ok ()) :=
          (hdone k).keeps _ _ _
        rw [this]
        exact hdone k
      · have h0 : 0 ≤ e := (abs_nonneg _).trans he
        nlinarith
      · rw [pow_succ, mul_assoc] at hsmall
        exact hsmall)
    rw [show 3 * (N + 1 + 1) = 3 + 3 * (N + 1) by ring]
    exact this

/-- **C128**, the other case: if the slope above the kink is less than twice the slope below, the same tuner
completes the tuning. -/
theorem increasing_device_is_tuned_partial {S : Setup 1 1} {b : ℝ} (hS : Kinked S b) (hb0 : 0 < b) (hb : b < 2)
    {orth : Orth 1} (ho : OrthSpec orth) {lstsq : Newton.Lstsq (Fin 1)} (hls : Newton.LstsqSpec lstsq) {tol : ℝ}
    (htol : (S.row 0).tolerance = some tol) (hfar : 1 ≤ S.desired 0) (c : Vec 1) {η : ℝ} (hη : 0 < η)
    (hc : c 0 + η ≤ 1) (t : OneTuner (FD 1) 1) (ht : InitialEven S c η t) :
    ∃ N, CompletesWithin S (fdI orth) lstsq N (fresh t (volts c)) := by
  have hpos := hS.sound.tolerance 0 tol htol
  have habs : |1 - b| < 1 := by rw [abs_lt]; constructor <;> linarith
  obtain ⟨start, hstart, hests⟩ := ht.ests
  have hlim : Filter.Tendsto (fun N : Nat => |1 - b| ^ (N + 1) * (|1 - b| * (S.desired 0 - 1))) Filter.atTop
      (nhds (0 * (|1 - b| * (S.desired 0 - 1)))) :=
    ((tendsto_pow_atTop_nhds_zero_of_lt_one (abs_nonneg _) habs).comp (Filter.tendsto_add_atTop_nat 1)).mul_const _
  rw [zero_mul] at hlim
  obtain ⟨N, hN⟩ := (hlim.eventually_lt_const hpos).exists
  refine ⟨_, first_phase_any hS.sound one_ne_zero ho c t (B := η) (η := some η) hstart
    (fun _ _ => ⟨hη, le_refl _⟩) (fun k h hh i => by cases hh; rfl)
    ⟨ht.target, hests, ht.gates, ht.index, rfl, rfl, ht.queued, ht.lastIndex⟩ (by rw [ht.maxStep]; simp)
    (3 + 3 * (N + 1)) ?_⟩
  intro E q t' d G hAt hq hd hsp hG
  have hx : |d 0 0| = η := by
    have := (hsp η rfl).1 0
    rwa [len_one] at this
  have hdone : ∀ k, Done (fun _ => 1) (E k) := by
    intro k
    have hk := Fin.eq_zero k
    subst hk
    obtain ⟨h1, h2⟩ := hG 0
    rwa [secant_low hS (x := d 0) (by intro h0; rw [h0, abs_zero] at hx; linarith) (by linarith)
      (by have := le_abs_self (d 0 0); linarith) (h2 0)] at h1
  have hq1 : q 0 ≤ 1 := by
    rw [len_one] at hq
    have := le_abs_self ((q - c) 0)
    simp only [Pi.sub_apply] at this hq
    linarith
  obtain ⟨t₁, hnext, hbase⟩ := kinked_next hS (orth := orth) hls ht.maxStep hAt hdone
  have hval : q 0 + (S.desired 0 - kinked b (q 0)) = S.desired 0 := by rw [kinked_low hq1]; ring
  refine cycle_or hS.sound hnext hbase (fun k y _ => ⟨E k, (hdone k).keeps _ _ _⟩) _ ?_
  intro y t'' _ _ hAt'
  refine kinked_phase hS hb0 hb hls ht.maxStep htol N _ _ t'' (|1 - b| * (S.desired 0 - 1)) hAt' (fun k => ?_)
    (by rw [hval]; exact hfar) ?_ ?_ hN
  · have : (fdI orth).update (volts fun _ => q 0 + (S.desired 0 - kinked b (q 0)))
        (some (S.scaled k fun _ => q 0 + (S.desired 0 - kinked b (q 0)))) (some (y k)) (E k) = (E k, .ok ()) :=
      (hdone k).keeps _ _ _
    rw [this]
    exact hdone k
  · rw [hval, kinked_high hfar]
    have : S.desired 0 - (1 + b * (S.desired 0 - 1)) = (1 - b) * (S.desired 0 - 1) := by ring
    rw [this, abs_mul, abs_of_nonneg (by linarith : 0 ≤ S.desired 0 - 1)]
  · nlinarith [abs_nonneg (1 - b)]

/-! ### A device and a tuner that meet the hypotheses -/

/-- One gate, one parameter with the set point 2. -/
noncomputable def kinkSetup (b : ℝ) : Setup 1 1 where
  row := fun _ => ⟨"x", some 2, none, none, some (1 / 10), none, some 1⟩
  desired := fun _ => 2
  scale := fun _ => 1
  grad := fun _ _ => 1
  response := fun _ v => kinked b (v 0)
  gates := [0]
  outs := fun v => [.ok ([("x", do let a ← v 0; pure (kinked b a))], [("x", some 1)])]
  variances := {1}

noncomputable def kinkTuner (b : ℝ) : OneTuner (FD 1) 1 :=
  ⟨⟨(kinkSetup b).target, [FD.new none (fun _ => 1 / 2) false], [0], fun _ => none, [("x", none)]⟩,
    [], fun _ => none, [], [], false, [], none, 5, 0⟩

theorem kinkSetup_kinked (b : ℝ) : Kinked (kinkSetup b) b where
  sound := {
    gates_nodup := by simp [kinkSetup]
    gates_all := fun i => by simp [kinkSetup, Fin.eq_zero i]
    names := by simp [kinkSetup, Setup.target, Target.names]
    desired := fun _ => rfl
    scale := fun _ => ⟨rfl, one_ne_zero⟩
    tolerance := fun _ tol h => by
      simp [kinkSetup] at h
      rw [← h]; norm_num
    nonempty := one_ne_zero
    evaluators := fun v => by
      refine ⟨fun _ => 1, fun _ => rfl, ?_⟩
      simp [evaluate, collect, kinkSetup, Setup.target, Target.names, Series.select, Series.val, List.lookup] }
  response := fun v => by simp [kinkSetup]

/-- Both cases occur: the same tuner, started at the voltage 0, is stuck for `b = 3` and not for `b = 3 / 2`. -/
example {orth : Orth 1} (ho : OrthSpec orth) {lstsq : Newton.Lstsq (Fin 1)} (hls : Newton.LstsqSpec lstsq) :
    NeverComplete (hierarchy (fdI orth) lstsq (kinkSetup 3).outs) (fresh (kinkTuner 3) (volts fun _ => 0)) ∧
    ∃ N, CompletesWithin (kinkSetup (3 / 2)) (fdI orth) lstsq N (fresh (kinkTuner (3 / 2)) (volts fun _ => 0)) := by
  have hi : ∀ b, InitialEven (kinkSetup b) (fun _ => 0) (1 / 2) (kinkTuner b) := fun b =>
    ⟨rfl, ⟨fun _ => none, fun _ => .inl rfl, rfl⟩, rfl, rfl, by simp [kinkTuner, Series.index], rfl, rfl⟩
  exact ⟨(increasing_device_is_tuned_refuted (kinkSetup_kinked 3) (by norm_num) ho hls rfl
      (by norm_num [kinkSetup]) _ (η := 1 / 2) (by norm_num) (by norm_num) _ (hi 3)).1,
    increasing_device_is_tuned_partial (kinkSetup_kinked _) (by norm_num) (by norm_num) ho hls rfl
      (by norm_num [kinkSetup]) _ (η := 1 / 2) (by norm_num) (by norm_num) _ (hi _)⟩

end Qtune.EndToEnd
