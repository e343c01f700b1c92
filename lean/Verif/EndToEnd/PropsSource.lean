import Verif.EndToEnd.SourceRun
import Verif.EndToEnd.PropsRobust

/-!
# End to end: the resolution of the voltage source
-/

namespace Qtune.EndToEnd

open Qtune.Tuner Qtune.Gradient Qtune.Autotuner

variable {n m : Nat}

/-- **C199**, the experiment reads back what is applied.  The source applies voltages at a distance of up to `r` from
the ones that it is told.  If the steps of the estimators are longer than `r` on all gates, and if a step of the
length `r` changes no parameter by as much as its tolerance, every affine device with linearly independent gradients is
tuned after as many calls as with a perfect source: at most `3 * (n + 1) + 1`.  The gradients are exact, whatever the
deviations are. -/
theorem read_back_source_is_tuned {S : Setup n m} (hS : S.Valid) {orth : Orth n} (ho : OrthSpec orth)
    {lstsq : Newton.Lstsq (Fin n)} (hl : Newton.LstsqSpec lstsq) {src : Volt (Fin n) → Volt (Fin n)} {r : ℝ}
    (hsrc : Resolution src r) (v c : Vec n) (hc : src (volts v) = volts c) (t : OneTuner (FD n) n)
    (ht : InitialFine S c r t)
    (htol : ∀ k tol, (S.row k).tolerance = some tol → len (fun i => S.grad k i / S.scale k) * r < tol) :
    CompletesSourced S (fdI orth) lstsq src true (3 * (n + 1) + 1) (fresh t (volts v)) := by
  have hn : n ≠ 0 := by
    rintro rfl
    have := hS.independent.fintype_card_le_finrank
    simp at this
    exact hS.nonempty this
  have hr := hsrc.nonneg
  obtain ⟨start, eps, hstart, heps, hests⟩ := ht.ests
  have hpos : ∀ k i, 0 < eps k i := fun k i => hr.trans_lt (heps k i)
  obtain ⟨B, hB⟩ : ∃ B, ∀ k i, eps k i ≤ B := by
    refine ⟨∑ k, ∑ i, eps k i, fun k i => ?_⟩
    refine (Finset.single_le_sum (f := fun i => eps k i) (fun i _ => (hpos k i).le) (Finset.mem_univ i)).trans ?_
    exact Finset.single_le_sum (f := fun k => ∑ i, eps k i) (fun k _ => Finset.sum_nonneg fun i _ => (hpos k i).le)
      (Finset.mem_univ k)
  have hbase : Base S (t.maxStep, t.maxNumber) (fun k => FD.new (start k) (eps k) false) t :=
    ⟨ht.target, hests, ht.gates, ht.index, rfl, rfl, ht.queued, ht.lastIndex⟩
  have hfirst : ∀ k (y : ℝ), ∃ e', (fdI orth).update (volts c) (some (S.scaled k c)) (some y)
      (FD.new (start k) (eps k) false) = (e', .ok ()) ∧
      Col B none (S.scaled k) c (fun j : Fin 0 => (j.elim0 : Vec n)) e' := fun k y =>
    Col.start (f := S.scaled k) hn c (eps k) (hpos k) (hB k) (fun h hh => by cases hh) (start k) (hstart k) y
  obtain ⟨y, t', b, hev, -, hAt, hb⟩ := evaluation (lstsq := lstsq) (I := fdI orth) hS.toSound hbase c
    (fun k y _ => by obtain ⟨e', he', -⟩ := hfirst k y; exact ⟨e', he'⟩)
  have h1 : iterates (sourced (fdI orth) lstsq S.outs src true) 1 (fresh t (volts v)) =
      .ok ⟨t', volts v, if b then 1 else 0, !b, none⟩ := by
    have : (iterate (sourced (fdI orth) lstsq S.outs src true) (.ok ()) (fresh t (volts v))).1 =
        ⟨t', volts v, if b then 1 else 0, !b, none⟩ ∧
        (iterate (sourced (fdI orth) lstsq S.outs src true) (.ok ()) (fresh t (volts v))).2.2 = .ok () := by
      cases b <;> simp [iterate, fresh, sourced, hierarchy, isComplete, finish, hc, hev]
    unfold iterates
    rcases hi : iterate (sourced (fdI orth) lstsq S.outs src true) (.ok ()) (fresh t (volts v)) with ⟨s₁, ev, r⟩
    rw [hi] at this
    simp only at this
    obtain ⟨rfl, rfl⟩ := this
    rfl
  cases b with
  | true => exact ⟨1, by omega, _, h1, rfl, c, hc, hb.1 rfl⟩
  | false =>
    obtain ⟨M, hM, s', hs', hcomp⟩ := sourced_collect hS.toSound ht.maxStep (B := B) ho (lstsq := lstsq) hsrc c 3 (by
        intro E q w t₁ d G h hd hG
        have hdone : ∀ k, Done (fun i => S.grad k i / S.scale k) (E k) := by
          intro k
          have : G k = fun i => S.grad k i / S.scale k := eq_of_products hd fun j => by
            rw [(hG k).2 j]
            have := (Setup.scaled_affine hS.affine k).sub (c + d j) c
            simpa using this
          rw [← this]
          exact (hG k).1
        obtain ⟨x, hsug, -, hx, -⟩ := newton_suggestion hS (I := fdI orth) hl h (fd_keeps S orth) hdone
        obtain ⟨t₂, hnext, hbase₂⟩ := suggestion (E' := E) (q' := q + x) h (by rw [ht.maxStep]; simp) hsug
        obtain ⟨p, hp, hlen⟩ := hsrc (q + x)
        refine sourced_cycle_or hS.toSound hp hnext hbase₂ (fun k y _ => ⟨E k, (hdone k).keeps _ _ _⟩) 0 ?_
        intro y t'' _ hnot _
        exfalso
        apply hnot
        intro k tol hk
        rw [← hx k]
        have h2 := (Setup.scaled_affine hS.affine k).sub p (q + x)
        have h3 := abs_product_le (fun i => S.grad k i / S.scale k) (p - (q + x))
        have h4 := mul_le_mul_of_nonneg_left hlen (len_nonneg fun i => S.grad k i / S.scale k)
        have h5 : |S.scaled k (q + x) - S.scaled k p| ≤ len (fun i => S.grad k i / S.scale k) * len (p - (q + x)) := by
          rw [abs_sub_comm, h2]
          exact h3
        exact (h5.trans h4).trans_lt (htol k tol hk)) (n - 1) 0 (by omega) (fun j : Fin 0 => (j.elim0 : Vec n))
      linearIndependent_empty_type _ c (volts v) t' hAt (fun j => by
        obtain ⟨e', he', hcol⟩ := hfirst j (y j)
        rw [he']
        exact hcol) (fun j i => by
        have := fd_update_eps (fun i => (volts c i).getD 0) (some (S.scaled j c)) (some (y j)) (FD.new (start j) (eps j) false)
        change r < (FD.update _ _ _ (FD.new (start j) (eps j) false)).1.eps i
        rw [this]
        exact heps j i)
    refine ⟨1 + M, by omega, s', ?_, hcomp⟩
    rw [iterates_add _ 1 M _ _ h1]
    exact hs'

/-- **C199**, the experiment reads back what it has been told.  The estimators attribute what they measure to voltages
that are wrong by up to `r`.  With steps of the length `η`, gradients with the condition `σ` and
`δ = 2 * steepness * r`, the tuning of every affine device is complete after finitely many calls if
`2 * sqrt n * δ / η < σ` and all tolerances are larger than `δ / (1 - ρ / (σ - ρ))` with `ρ = sqrt n * δ / η`. -/
theorem told_source_is_tuned {S : Setup n m} (hS : S.Sound) (haff : S.Affine) {orth : Orth n} (ho : OrthSpec orth)
    {lstsq : Newton.Lstsq (Fin n)} (hl : Newton.LstsqSpec lstsq) {src : Volt (Fin n) → Volt (Fin n)} {r : ℝ}
    (hsrc : Resolution src r) {σ ρ η δ : ℝ} (hη : 0 < η) (hσ : Conditioned S σ) (hδ : δ = 2 * steepness S * r)
    (hρ : ρ = Real.sqrt n * (δ / η)) (hρσ : 2 * ρ < σ) (c : Vec n) (t : OneTuner (FD n) n)
    (ht : InitialEven S c η t)
    (htol : ∀ k tol, (S.row k).tolerance = some tol → δ / (1 - ρ / (σ - ρ)) < tol) :
    ∃ N, CompletesSourced S (fdI orth) lstsq src false N (fresh t (volts c)) := by
  choose app happ hlen using hsrc
  let S' : Setup n m := { S with
    response := fun k v => S.response k (app v)
    outs := fun x => S.outs (src x) }
  have hS' : S'.Sound :=
    ⟨hS.gates_nodup, hS.gates_all, hS.names, hS.desired, hS.scale, hS.tolerance, hS.nonempty, fun v => by
      obtain ⟨y, hy, hev⟩ := hS.evaluators (app v)
      refine ⟨y, hy, ?_⟩
      have : S'.outs (fun i => some (v i)) = S.outs (volts (app v)) := by
        change S.outs (src (volts v)) = _
        rw [happ]
      rw [this]
      exact hev⟩
  have hr : 0 ≤ r := (len_nonneg _).trans (hlen 0)
  have hst : 0 ≤ steepness S := Real.sqrt_nonneg _
  have hδ0 : 0 ≤ δ := by rw [hδ]; positivity
  have hbend : NearlyAffine S' 0 δ := by
    intro v s
    have h1 : (fun k => S'.response k (v + s) / S'.scale k - S'.response k v / S'.scale k -
        ∑ i, S'.grad k i / S'.scale k * s i) = act S.slope ((app (v + s) - (v + s)) + (v - app v)) := by
      funext k
      have h2 := (Setup.scaled_affine haff k).sub (app (v + s)) (app v)
      change S.scaled k (app (v + s)) - S.scaled k (app v) - ∑ i, S.grad k i / S.scale k * s i = _
      rw [h2, ← Finset.sum_sub_distrib]
      unfold act Setup.slope
      refine Finset.sum_congr rfl fun i _ => ?_
      simp only [Pi.add_apply, Pi.sub_apply]
      ring
    have h3 := act_le S.slope ((app (v + s) - (v + s)) + (v - app v))
    have h4 := len_add (app (v + s) - (v + s)) (v - app v)
    have h5 := hlen (v + s)
    have h6 := hlen v
    rw [len_sub_comm] at h6
    rw [h1, zero_mul, zero_add, hδ]
    have h7 : frob S.slope = steepness S := rfl
    rw [h7] at h3
    have h8 : len (app (v + s) - (v + s) + (v - app v)) ≤ 2 * r := by linarith
    have := mul_le_mul_of_nonneg_left h8 hst
    linarith
  have ht' : InitialEven S' c η t :=
    ⟨ht.target, ht.ests, ht.gates, ht.index, ht.lastIndex, ht.queued, ht.maxStep⟩
  obtain ⟨N, M, hM, s', hs', hcomp, q, hq, hmet⟩ := nearly_affine_device_is_tuned_eventually hS' (le_refl 0) hδ0 hη hbend
    (σ := σ) (ρ := ρ) hσ (by rw [zero_add, hρ]) (by linarith) ho hl c t ht' (by
      intro k tol hk
      rw [add_zero]
      exact htol k tol hk)
  refine ⟨N, M, hM, s', hs', hcomp, app q, by rw [hq, happ], hmet⟩

/-- **C199**: when the tuning is complete, the voltages that are applied meet the set points, whatever the source and
the estimators do. -/
theorem complete_source_meets {S : Setup n m} (hS : S.Sound) {X : Type} (I : Newton.EstI X (Fin n))
    (lstsq : Newton.Lstsq (Fin n)) {src : Volt (Fin n) → Volt (Fin n)} {r : ℝ} (hsrc : Resolution src r) (back : Bool)
    (c : Vec n) (t : OneTuner X n) (ht : t.solver.target = S.target) (N : Nat)
    (s' : Autotuner.State (OneTuner X n) (Volt (Fin n)) (Volt (Fin n)))
    (hs : iterates (sourced I lstsq S.outs src back) N (fresh t (volts c)) = .ok s')
    (hcomp : isComplete (sourced I lstsq S.outs src back) s' = true) :
    ∃ p q : Vec n, s'.expt = volts q ∧ src (volts q) = volts p ∧ SetPointsMet S p := by
  obtain ⟨p, hp, -⟩ := hsrc c
  obtain ⟨q, hq, p', hp', h⟩ := sourced_complete_met hS I lstsq (fun q => (hsrc q).imp fun _ h => h.1) back N _ s' ht ⟨c, rfl, p, hp, .inl rfl⟩ hs
  refine ⟨p', q, hq, hp', h.resolve_left fun h0 => ?_⟩
  unfold isComplete at hcomp
  rw [h0] at hcomp
  simp [sourced, hierarchy] at hcomp

/-- **C199**, the limit: if no voltages that the source can apply meet the set points, the tuning is never complete,
however often `iterate` is called, although the device may be affine and a perfect source would do. -/
theorem coarse_source_refuted {S : Setup n m} (hS : S.Sound) {X : Type} (I : Newton.EstI X (Fin n))
    (lstsq : Newton.Lstsq (Fin n)) {src : Volt (Fin n) → Volt (Fin n)} {r : ℝ} (hsrc : Resolution src r) (back : Bool)
    (hnone : ∀ q p : Vec n, src (volts q) = volts p → ¬ SetPointsMet S p)
    (c : Vec n) (t : OneTuner X n) (ht : t.solver.target = S.target) (N : Nat)
    (s' : Autotuner.State (OneTuner X n) (Volt (Fin n)) (Volt (Fin n)))
    (hs : iterates (sourced I lstsq S.outs src back) N (fresh t (volts c)) = .ok s') :
    isComplete (sourced I lstsq S.outs src back) s' = false := by
  rw [← Bool.not_eq_true]
  intro hcomp
  obtain ⟨p, q, hq, hp, hmet⟩ := complete_source_meets hS I lstsq hsrc back c t ht N s' hs hcomp
  exact hnone q p (hq ▸ hp) hmet

/-! ### Sources that meet the hypotheses -/

/-- The voltages are rounded to multiples of `u`. -/
noncomputable def rounding (u : ℝ) (x : Volt (Fin 2)) : Volt (Fin 2) := fun i => (x i).map fun a => _root_.round (a / u) * u

theorem rounding_volts (u : ℝ) (q : Vec 2) : rounding u (volts q) = volts fun i => _root_.round (q i / u) * u := rfl

theorem rounding_resolution {u : ℝ} (hu : 0 < u) : Resolution (rounding u) u := by
  intro q
  refine ⟨_, rounding_volts u q, ?_⟩
  have h : ∀ i, (_root_.round (q i / u) * u - q i) ^ 2 ≤ (u / 2) ^ 2 := by
    intro i
    have h1 := abs_sub_round (q i / u)
    have h2 : _root_.round (q i / u) * u - q i = -((q i / u - _root_.round (q i / u)) * u) := by
      field_simp
      ring
    rw [h2, neg_sq]
    apply sq_le_sq.2
    rw [abs_mul, abs_of_pos hu, abs_of_pos (half_pos hu)]
    have := mul_le_mul_of_nonneg_right h1 hu.le
    linarith
  unfold len
  rw [Real.sqrt_le_iff]
  refine ⟨hu.le, ?_⟩
  rw [Fin.sum_univ_two]
  have h0 := h 0
  have h1 := h 1
  simp only [Pi.sub_apply]
  nlinarith [sq_nonneg u]

theorem sample_slope : len (fun i => sampleSetup.grad 0 i / sampleSetup.scale 0) ≤ 3 / 5 := by
  unfold len
  rw [Real.sqrt_le_iff]
  simp [sampleSetup, Fin.sum_univ_two]
  norm_num

/-- A source with multiples of `1/100` is fine enough: the hypotheses of `read_back_source_is_tuned` are met, and
neither the voltages at the start nor the ones that are applied meet the set point. -/
example : Resolution (rounding (1 / 100)) (1 / 100) ∧
    rounding (1 / 100) (volts fun _ => 8) = volts (fun _ => 8) ∧
    InitialFine sampleSetup (fun _ => 8) (1 / 100) sampleTuner ∧
    (∀ k tol, (sampleSetup.row k).tolerance = some tol →
      len (fun i => sampleSetup.grad k i / sampleSetup.scale k) * (1 / 100) < tol) ∧
    ¬ SetPointsMet sampleSetup (fun _ => 8) := by
  refine ⟨rounding_resolution (by norm_num), ?_, ?_, ?_, ?_⟩
  · rw [rounding_volts]
    congr 1
    funext _
    have : (8 : ℝ) / (1 / 100) = ((800 : ℤ) : ℝ) := by norm_num
    rw [this, round_intCast]
    norm_num
  · exact ⟨rfl, ⟨fun _ => none, fun _ _ => 1 / 2, fun _ => .inl rfl, fun _ _ => by norm_num, rfl⟩, rfl, rfl,
      by simp [sampleTuner, Series.index], rfl, rfl⟩
  · intro k tol hk
    obtain rfl : k = 0 := Subsingleton.elim _ _
    have ht : tol = 1 / 10 := by
      simp [sampleSetup] at hk
      rw [← hk]
      norm_num
    have := sample_slope
    rw [ht]
    linarith
  · intro h
    have := h 0 (1 / 10) rfl
    simp [sampleSetup] at this
    norm_num [abs_lt] at this

theorem sample_steepness : steepness sampleSetup ≤ 3 / 5 := by
  unfold steepness
  rw [Real.sqrt_le_iff]
  simp [sampleSetup, Fin.sum_univ_two]
  norm_num

/-- The hypotheses of `told_source_is_tuned` are met by the same source. -/
example : ∃ σ ρ δ : ℝ, Conditioned sampleSetup σ ∧ δ = 2 * steepness sampleSetup * (1 / 100) ∧
    ρ = Real.sqrt (2 : Nat) * (δ / (1 / 2)) ∧ 2 * ρ < σ ∧ InitialEven sampleSetup (fun _ => 8) (1 / 2) sampleTuner ∧
    ∀ k tol, (sampleSetup.row k).tolerance = some tol → δ / (1 - ρ / (σ - ρ)) < tol := by
  have h2 : Real.sqrt (2 : Nat) ≤ 3 / 2 := by
    rw [Real.sqrt_le_iff]
    norm_num
  have h2' : 0 ≤ Real.sqrt (2 : Nat) := Real.sqrt_nonneg _
  have hs := sample_steepness
  have hs0 : 0 ≤ steepness sampleSetup := Real.sqrt_nonneg _
  obtain ⟨δ, hδ⟩ : ∃ δ, δ = 2 * steepness sampleSetup * (1 / 100) := ⟨_, rfl⟩
  obtain ⟨ρ, hρ⟩ : ∃ ρ, ρ = Real.sqrt (2 : Nat) * (δ / (1 / 2)) := ⟨_, rfl⟩
  have hδ0 : 0 ≤ δ := by rw [hδ]; positivity
  have hδ1 : δ ≤ 12 / 1000 := by rw [hδ]; linarith
  have hρ0 : 0 ≤ ρ := by rw [hρ]; positivity
  have hρ1 : ρ ≤ 36 / 1000 := by
    rw [hρ]
    have : δ / (1 / 2) = 2 * δ := by ring
    rw [this]
    nlinarith
  refine ⟨1 / 2, ρ, δ, ?_, hδ, hρ, by linarith, ?_, ?_⟩
  · intro x
    have h3 : len x = |x 0| := by simp [len, Real.sqrt_sq_eq_abs]
    rw [h3]
    have : len (fun i => ∑ k, x k * (sampleSetup.grad k i / sampleSetup.scale k)) = Real.sqrt (5 / 16) * |x 0| := by
      unfold len
      rw [← Real.sqrt_sq_eq_abs, ← Real.sqrt_mul (by norm_num)]
      congr 1
      simp [sampleSetup, Fin.sum_univ_two]
      ring
    rw [this]
    refine mul_le_mul_of_nonneg_right ?_ (abs_nonneg _)
    rw [Real.le_sqrt (by norm_num) (by norm_num)]
    norm_num
  · exact ⟨rfl, ⟨fun _ => none, fun _ => .inl rfl, rfl⟩, rfl, rfl, by simp [sampleTuner, Series.index], rfl, rfl⟩
  · intro k tol hk
    have ht : tol = 1 / 10 := by
      simp [sampleSetup] at hk
      rw [← hk]
      norm_num
    have h4 : ρ / (1 / 2 - ρ) ≤ 1 / 2 := by
      rw [div_le_iff₀ (by linarith)]
      linarith
    rw [ht, div_lt_iff₀ (by linarith)]
    linarith

/-- A source with multiples of 100 is too coarse: none of its voltages meets the set point of `sampleSetup`, which a
perfect source meets. -/
example : sampleSetup.Valid ∧ Resolution (rounding 100) 100 ∧
    (∀ q p : Vec 2, rounding 100 (volts q) = volts p → ¬ SetPointsMet sampleSetup p) ∧
    SetPointsMet sampleSetup ![7 / 2, 0] := by
  refine ⟨sampleSetup_valid, rounding_resolution (by norm_num), ?_, ?_⟩
  · intro q p h hmet
    rw [rounding_volts] at h
    have hp : p = fun i => (_root_.round (q i / 100) : ℝ) * 100 := by
      funext i
      have := congrFun h i
      exact (Option.some.inj this).symm
    have h1 := hmet 0 (1 / 10) rfl
    have e : sampleSetup.desired 0 - sampleSetup.response 0 p / sampleSetup.scale 0 =
        7 / 4 - 25 * ((2 * _root_.round (q 0 / 100) - _root_.round (q 1 / 100) : ℤ) : ℝ) := by
      rw [hp]
      simp only [sampleSetup]
      push_cast
      ring
    rw [e] at h1
    generalize 2 * _root_.round (q 0 / 100) - _root_.round (q 1 / 100) = z at h1
    obtain ⟨ha, hb⟩ := abs_lt.1 h1
    have h3 : (z : ℝ) < 1 := by linarith
    have h4 : (0 : ℝ) < z := by linarith
    have h5 : z < 1 := by exact_mod_cast h3
    have h6 : 0 < z := by exact_mod_cast h4
    omega
  · intro k tol hk
    have ht : tol = 1 / 10 := by
      simp [sampleSetup] at hk
      rw [← hk]
      norm_num
    rw [ht]
    simp [sampleSetup]
    norm_num

end Qtune.EndToEnd
