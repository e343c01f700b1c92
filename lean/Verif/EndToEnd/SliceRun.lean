import Verif.EndToEnd.PropsRobust

/-! # Newton steps in slices with estimated gradients -/

namespace Qtune.EndToEnd

open Qtune.Tuner Qtune.Gradient Qtune.Autotuner

variable {n m : Nat} {X : Type}

/-- The suggestion of `known_suggestion` from other voltages, before the next evaluation. -/
theorem known_shift {S : Setup n m} (hS : S.Sound) {μ : Val × Int} {I : Newton.EstI X (Fin n)}
    {lstsq : Newton.Lstsq (Fin n)} {E : Fin m → X} {q : Vec n} {t : OneTuner X n}
    (h : At S μ E q t) {G : Fin m → Vec n} (hsilent : ∀ k tj, I.require S.gates tj (E k) = (E k, .ok none))
    (hG : ∀ k, I.estimate (E k) = some fun i => some (G k i)) {x : Vec n}
    (hsug : Newton.suggest I lstsq [] t.solver =
        ({ t.solver with ests := List.ofFn E }, .ok fun i => some (some ((q + x) i)))) (q' : Vec n) :
    Newton.suggest I lstsq [] { t.solver with pos := volts q' } =
      ({ t.solver with pos := volts q' }, .ok fun i => some (some ((q' + x) i))) := by
  have hself : { t.solver with ests := List.ofFn E } = t.solver := by
    have := h.ests
    rcases t with ⟨⟨T, es, gs, ps, vs⟩, _, _, _, _, _, _, _, _, _⟩
    simp only at this ⊢
    rw [this]
  have hin : ∀ i, i ∈ t.solver.gates := fun i => by rw [h.gates]; exact hS.gates_all i
  have := newton_shift (s := t.solver) (p := q) (x := x) (k := m) (G := G) h.pos (by
      intro re hre _ tj
      have hmem := (List.of_mem_zip hre).2
      rw [h.ests] at hmem
      obtain ⟨k, hk⟩ := (List.mem_ofFn' _ _).1 hmem
      rw [← hk, h.gates]
      exact hsilent k tj) (by rw [h.target]; simp [Setup.target]) (by
      rw [h.ests, List.map_ofFn]
      congr 1
      funext k
      exact hG k) (tuned := []) (I := I) (lstsq := lstsq) (by
      rw [hsug, hself]
      congr 2
      funext i
      rw [if_pos (hin i)]
      rfl) q'
  refine this.trans ?_
  congr 2
  funext i
  rw [if_pos (hin i)]
  rfl

/-- The rest of the way, `j + 1` slices, and the evaluation at the end, for estimators in the states `A`, which they keep. -/
theorem walk_phase {S : Setup n m} (hS : S.Sound) {I : Newton.EstI X (Fin n)} {lstsq : Newton.Lstsq (Fin n)}
    {μ : Val × Int} {E : Fin m → X} {q₀ x : Vec n} {t₀ : OneTuner X n} (h₀ : At S μ E q₀ t₀)
    {A : Fin m → X → Prop} (hA : ∀ k e, A k e → ∀ q, ∀ y ∈ S.seen k,
      ∃ e', I.update (volts q) (some (S.scaled k q)) (some y) e = (e', .ok ()) ∧ A k e')
    (hdone : ∀ k, A k (E k)) {M : ℝ} (hM : 0 < M)
    (hmax : t₀.maxStep = some M) (hlong : M < len x)
    (hshift : ∀ q' : Vec n, Newton.suggest I lstsq [] { t₀.solver with pos := volts q' } =
      ({ t₀.solver with pos := volts q' }, .ok fun i => some (some ((q' + x) i)))) (N : Nat) :
    ∀ (j : Nat) (q : Vec n) (t : OneTuner X n), Way t₀ q t → left (len x) M t = j + 1 →
      (∀ (E' : Fin m → X) (t'' : OneTuner X n), (∀ k, A k (E' k)) →
        ¬ SetPointsMet S (q + ((j + 1 : ℝ) * (M / len x)) • x) →
        At S μ E' (q + ((j + 1 : ℝ) * (M / len x)) • x) t'' →
        CompletesWithin S I lstsq N
          ⟨t'', volts (q + ((j + 1 : ℝ) * (M / len x)) • x), 0, true, none⟩) →
      CompletesWithin S I lstsq (3 * (j + 1) + N) ⟨t, volts q, 0, true, none⟩ := by
  intro j
  induction j with
  | zero =>
    intro q t h hleft hcont
    have hnext := way_next (I := I) (lstsq := lstsq) hM hmax hlong hshift h
    rw [hleft] at hnext
    have hb : Base S μ E { t with queued := ((0 : Nat) : Int) + 1 - 1 } := by
      refine ⟨?_, ?_, ?_, ?_, ?_, ?_, by simp, ?_⟩
      · simp only [h.solver]; exact h₀.target
      · simp only [h.solver]; exact h₀.ests
      · simp only [h.solver]; exact h₀.gates
      · simp only [h.solver]; exact h₀.index
      · exact h.maxStep.trans h₀.maxStep
      · exact h.maxNumber.trans h₀.maxNumber
      · simp only [h.lastValues]; exact h₀.lastIndex
    have hupd : ∀ k, ∀ y ∈ S.seen k, ∃ e', I.update (volts (q + (M / len x) • x))
        (some (S.scaled k (q + (M / len x) • x))) (some y) (E k) = (e', .ok ()) ∧ A k e' :=
      fun k y hy => hA k _ (hdone k) _ y hy
    have := cycle_or hS (q := q) hnext hb (fun k y hy => by
      obtain ⟨e', he', -⟩ := hupd k y hy
      exact ⟨e', he'⟩) N (by
      intro y t'' hy hnot hAt
      have hq : q + ((((0 : Nat) : ℝ) + 1) * (M / len x)) • x = q + (M / len x) • x := by simp
      have := hcont (fun k => (I.update (volts (q + (M / len x) • x))
        (some (S.scaled k (q + (M / len x) • x))) (some (y k)) (E k)).1) t'' (fun k => by
        obtain ⟨e', he', hA'⟩ := hupd k (y k) (hy k)
        rw [he']
        exact hA') (by rw [hq]; exact hnot) (by rw [hq]; exact hAt)
      rw [hq] at this
      exact this)
    simpa using this
  | succ j ih =>
    intro q t h hleft hcont
    have hnext := way_next (I := I) (lstsq := lstsq) hM hmax hlong hshift h
    rw [hleft] at hnext
    have hq : (((j + 1 : Nat) : Int) + 1 - 1) = (j : Int) + 1 := by push_cast; ring
    rw [hq] at hnext
    let q' : Vec n := q + (M / len x) • x
    let t'' : OneTuner X n := { t with
      queued := (j : Int) + 1
      lastVoltage := volts q'
      solver := { t.solver with pos := volts q' } }
    have hev : isTuned (Newton.solver I lstsq) (S.outs (volts q')) (volts q')
        { t with queued := (j : Int) + 1 } = (t'', .ok false) := by
      unfold isTuned
      simp only
      rw [if_pos (by omega)]
      rfl
    have hrun := cycle (q := q) hnext hev
    have hway : Way t₀ q' t'' := by
      refine ⟨?_, rfl, h.lastFailed, h.maxStep, h.maxNumber, h.lastValues⟩
      simp only [t'', h.solver]
    have hleft' : left (len x) M t'' = j + 1 := by
      unfold left
      rw [if_neg (by simp only [t'']; omega)]
    have hend : q' + ((j + 1 : ℝ) * (M / len x)) • x =
        q + ((((j + 1 : Nat) : ℝ) + 1) * (M / len x)) • x := by
      simp only [q']
      push_cast
      rw [add_assoc, ← add_smul]
      congr 2
      ring
    obtain ⟨K, hK, s', hs', hc⟩ := ih q' t'' hway hleft' (by rw [hend]; exact hcont)
    refine ⟨3 + K, by omega, s', ?_, hc⟩
    rw [iterates_add _ 3 K _ _ hrun]
    exact hs'

/-- A part `θ` of a Newton step with secants reduces what is missing. -/
theorem part_step {S : Setup n m} {κ δ ρ σ θ : ℝ} {e e' : Fin m → ℝ} (hκ : 0 ≤ κ) (hρ0 : 0 ≤ ρ) (hθ0 : 0 ≤ θ) (hθ1 : θ ≤ 1)
    (hρσ : ρ < σ) {G : Fin m → Vec n} (hfrob : frob (G - S.slope) ≤ ρ) {x : Vec n} (hx : act G x = e)
    (hlen : (σ - ρ) * len x ≤ len e)
    (hbend : len (fun k => e k - e' k - ∑ i, S.slope k i * (θ • x) i) ≤ κ * len (θ • x) + δ) :
    len e' ≤ len e - θ * (1 - (ρ + κ) / (σ - ρ)) * len e + δ := by
  have hτ : 0 < σ - ρ := by linarith
  let r : Fin m → ℝ := fun k => e k - e' k - ∑ i, S.slope k i * (θ • x) i
  have hm : e' = ((1 - θ) • e + θ • act (G - S.slope) x) + (-1 : ℝ) • r := by
    funext k
    have := congrFun hx k
    simp only [act] at this
    have h2 : ∑ i, S.slope k i * (θ * x i) = θ * ∑ i, S.slope k i * x i := by
      rw [Finset.mul_sum]
      exact Finset.sum_congr rfl fun i _ => by ring
    simp only [act, r, Pi.add_apply, Pi.smul_apply, smul_eq_mul, Pi.sub_apply, sub_mul,
      Finset.sum_sub_distrib, this, h2]
    ring
  have h1 := len_add ((1 - θ) • e + θ • act (G - S.slope) x) ((-1 : ℝ) • r)
  have h1' := len_add ((1 - θ) • e) (θ • act (G - S.slope) x)
  rw [← hm, len_smul] at h1
  rw [len_smul, len_smul, abs_of_nonneg hθ0, abs_of_nonneg (by linarith)] at h1'
  have h2 := act_le (G - S.slope) x
  have h3 : len r ≤ κ * (θ * len x) + δ := by
    have : len (θ • x) = θ * len x := by rw [len_smul, abs_of_nonneg hθ0]
    rw [← this]
    exact hbend
  have h4 := mul_le_mul_of_nonneg_right hfrob (len_nonneg x)
  have h5 : (ρ + κ) * len x ≤ (ρ + κ) / (σ - ρ) * len e := by
    rw [div_mul_eq_mul_div, le_div_iff₀ hτ]
    nlinarith [mul_le_mul_of_nonneg_left hlen (by positivity : 0 ≤ ρ + κ)]
  have h6 := mul_le_mul_of_nonneg_left h5 hθ0
  have h7 := mul_le_mul_of_nonneg_left (h2.trans h4) hθ0
  norm_num at h1
  nlinarith

/-- Arithmetic of a step whose number of slices is limited. -/
theorem capped_bound {e e' a f b B θ δ Δ g : ℝ} (h1a : 0 ≤ 1 - a) (hf1 : f ≤ 1) (hp : e' ≤ e - θ * (1 - a) * e + δ)
    (hb : e ≤ b + Δ) (hbB : b ≤ B) (h1 : g ≤ θ * e) (hB : B - ((1 - a) * g - δ) ≤ f * B) : e' ≤ f * b + Δ := by
  have h2 := mul_le_mul_of_nonneg_left h1 h1a
  have h3 : 0 ≤ (1 - f) * (B - b) := mul_nonneg (by linarith) (by linarith)
  have h4 : (1 - a) * (θ * e) = θ * (1 - a) * e := by ring
  have h5 : (1 - f) * (B - b) = B - b - f * B + f * b := by ring
  linarith

/-- Arithmetic of a step of which at least half is made. -/
theorem half_bound {e e' a f b θ δ Δ : ℝ} (h1a : 0 ≤ 1 - a) (ha0 : 0 ≤ a) (hb0 : 0 ≤ b) (he : 0 ≤ e)
    (hp : e' ≤ e - θ * (1 - a) * e + δ) (hb : e ≤ b + Δ) (hθ : 1 / 2 ≤ θ) (hf : (1 + a) / 2 ≤ f) (hfix : (1 - a) * Δ = 2 * δ) :
    e' ≤ f * b + Δ := by
  have h1 : (1 / 2) * (1 - a) * e ≤ θ * (1 - a) * e :=
    mul_le_mul_of_nonneg_right (mul_le_mul_of_nonneg_right hθ h1a) he
  have h3 : (1 + a) / 2 * e ≤ (1 + a) / 2 * (b + Δ) := mul_le_mul_of_nonneg_left hb (by linarith)
  have h4 : (1 + a) / 2 * b ≤ f * b := mul_le_mul_of_nonneg_right hf hb0
  have h5 : (1 + a) / 2 * (b + Δ) = (1 + a) / 2 * b + Δ - (1 - a) * Δ / 2 := by ring
  linarith

/-- One Newton step in slices of the length `M`, of which at most `ν` are made before the next evaluation. -/
theorem sliced_step {S : Setup n m} (hS : S.Sound) {κ δ ρ σ a f Δ : ℝ} (hbend : NearlyAffine S κ δ) (hκ : 0 ≤ κ) (hδ : 0 ≤ δ)
    (hσ : Conditioned S σ) (hρ0 : 0 ≤ ρ) (hρσ : 2 * ρ + κ < σ) {orth : Orth n}
    {lstsq : Newton.Lstsq (Fin n)} (hls : Newton.LstsqSpec lstsq) {M : ℝ} (hM : 0 < M) {ν : Nat} (hν : 1 ≤ ν)
    (ha : a = (ρ + κ) / (σ - ρ)) (hΔ : Δ = 2 * δ / (1 - a)) (hf : (1 + a) / 2 ≤ f) {B : ℝ}
    (hB : B - ((1 - a) * (σ - ρ) * (ν * M) - δ) ≤ f * B) (hf1 : f ≤ 1)
    {G : Fin m → Vec n} (hfrob : frob (G - S.slope) ≤ ρ) :
    ∀ (E : Fin m → FD n) (q : Vec n) (t : OneTuner (FD n) n) (b : ℝ), At S (some M, (ν : Int)) E q t →
      (∀ k, Done (G k) (E k)) → 0 ≤ b → b ≤ B → len (S.miss q) ≤ b + Δ → ∀ N',
      (∀ (q' : Vec n) (E' : Fin m → FD n) (t' : OneTuner (FD n) n), At S (some M, (ν : Int)) E' q' t' →
        (∀ k, Done (G k) (E' k)) → ¬ SetPointsMet S q' → len (S.miss q') ≤ f * b + Δ →
        CompletesWithin S (fdI orth) lstsq N' ⟨t', volts q', 0, true, none⟩) →
      CompletesWithin S (fdI orth) lstsq (3 * ν + N') ⟨t, volts q, 0, true, none⟩ := by
  have hτ : 0 < σ - ρ := by linarith
  have ha0 : 0 ≤ a := by rw [ha]; positivity
  have ha1 : a < 1 := by rw [ha, div_lt_one hτ]; linarith
  have hf0 : 0 ≤ f := by linarith
  have h1a : 0 < 1 - a := by linarith
  have hfix : (1 - a) * Δ = 2 * δ := by
    rw [hΔ]; field_simp
  have hΔ0 : 0 ≤ Δ := by rw [hΔ]; positivity
  have hg : 0 ≤ (1 - a) * (σ - ρ) * (ν * M) := by positivity
  intro E q t b h hdone hb0 hbB hb N' hcont
  have hsil : ∀ k tj, (fdI orth).require S.gates tj (E k) = (E k, .ok none) := fun k tj => (hdone k).silent tj
  have hGE : ∀ k, (fdI orth).estimate (E k) = some fun i => some (G k i) := fun k => by
    obtain ⟨C, hC⟩ := (hdone k).est
    simp [fdI, hC]
  obtain ⟨x, hsug, hx, hlen⟩ := known_suggestion hS hls h (G := G) (I := fdI orth) hsil hGE hτ (perturbed hσ hfrob)
  have hpart : ∀ θ, 0 ≤ θ → θ ≤ 1 → len (S.miss (q + θ • x)) ≤
      len (S.miss q) - θ * (1 - a) * len (S.miss q) + δ := by
    intro θ h0 h1
    rw [ha]
    refine part_step (δ := δ) (e' := S.miss (q + θ • x)) hκ hρ0 h0 h1 (by linarith) hfrob hx hlen ?_
    refine le_trans (le_of_eq ?_) (hbend q (θ • x))
    congr 1
    funext k
    simp only [Setup.miss, Setup.slope]
    ring
  by_cases hlong : M < len x
  · obtain ⟨hint, hone⟩ := toInt_div hM hlong
    have hL : 0 < len x := lt_trans hM hlong
    obtain ⟨j, hj⟩ : ∃ j : Nat, j + 1 = min ⌊len x / M⌋₊ ν := ⟨min ⌊len x / M⌋₊ ν - 1, by omega⟩
    have hway : Way t q t := ⟨by
      have := h.pos
      rcases t with ⟨⟨_, _, _, _, _⟩, _, _, _, _, _, _, _, _, _⟩
      simp only at this ⊢
      rw [this], h.lastVoltage, h.lastFailed, rfl, rfl, rfl⟩
    have hleft : left (len x) M t = j + 1 := by
      unfold left
      rw [if_pos h.queued, h.maxNumber, hint]
      show min ((⌊len x / M⌋₊ : Nat) : Int) (ν : Int) = _
      omega
    obtain ⟨θ, hθ⟩ : ∃ θ : ℝ, θ = (j + 1 : ℝ) * (M / len x) := ⟨_, rfl⟩
    have hθL : θ * len x = (j + 1 : ℝ) * M := by
      rw [hθ]; field_simp
    have hfloor := Nat.floor_le (a := len x / M) (by positivity)
    have hjF : ((j + 1 : Nat) : ℝ) ≤ (⌊len x / M⌋₊ : ℝ) := by
      exact_mod_cast (show j + 1 ≤ ⌊len x / M⌋₊ by omega)
    have hθ0 : 0 ≤ θ := by rw [hθ]; positivity
    have hθ1 : θ ≤ 1 := by
      have h3 : ((j + 1 : Nat) : ℝ) ≤ len x / M := hjF.trans hfloor
      rw [le_div_iff₀ hM] at h3
      push_cast at h3
      rw [hθ, ← mul_div_assoc, div_le_one hL]
      exact h3
    have hp := hpart θ hθ0 hθ1
    have hmiss : len (S.miss (q + θ • x)) ≤ f * b + Δ := by
      by_cases hcap : ν ≤ ⌊len x / M⌋₊
      · -- the number of slices is limited
        have hjν : (j + 1 : ℝ) = ν := by
          have : j + 1 = ν := by omega
          exact_mod_cast this
        have h1 : (σ - ρ) * (ν * M) ≤ θ * len (S.miss q) := by
          have := mul_le_mul_of_nonneg_left hlen hθ0
          rw [hjν] at hθL
          calc (σ - ρ) * (ν * M) = θ * ((σ - ρ) * len x) := by rw [← hθL]; ring
            _ ≤ _ := this
        exact capped_bound h1a.le hf1 hp hb hbB h1 (by rw [← mul_assoc]; exact hB)
      · -- at least half of the step is made
        have hjf : (⌊len x / M⌋₊ : ℝ) = j + 1 := by
          have : ⌊len x / M⌋₊ = j + 1 := by omega
          exact_mod_cast this
        have hlt := Nat.lt_floor_add_one (len x / M)
        rw [hjf] at hlt
        rw [div_lt_iff₀ hM] at hlt
        have hj1 : (0 : ℝ) ≤ j := Nat.cast_nonneg j
        have hθ2 : 1 / 2 ≤ θ := by
          by_contra hc
          push Not at hc
          have := mul_lt_mul_of_pos_right hc hL
          rw [hθL] at this
          nlinarith
        exact half_bound h1a.le ha0 hb0 (len_nonneg _) hp hb hθ2 hf hfix
    have := walk_phase hS (lstsq := lstsq) (I := fdI orth) h (A := fun k => Done (G k))
      (fun k e he q' y _ => ⟨e, he.keeps _ _ _, he⟩) hdone hM h.maxStep hlong
      (known_shift hS h hsil hGE hsug) N' j q t hway hleft (by
        rw [← hθ]
        intro E' t'' hdone' hnot hAt
        exact hcont _ E' t'' hAt hdone' hnot hmiss)
    obtain ⟨K, hK, hc⟩ := this
    have hjν : 3 * (j + 1) ≤ 3 * ν := by omega
    exact ⟨K, by omega, hc⟩
  · obtain ⟨t', hnext, hbase⟩ := suggestion (E' := E) (q' := q + x) h (by
      intro M' hM'
      simp only [Option.some.injEq] at hM'
      rw [← hM']
      simpa using not_lt.1 hlong) hsug
    have hm : len (S.miss (q + x)) ≤ f * b + Δ := by
      have h1 := hpart 1 zero_le_one le_rfl
      rw [one_smul] at h1
      exact half_bound h1a.le ha0 hb0 (len_nonneg _) h1 hb (by norm_num) hf hfix
    have := cycle_or hS (q := q) hnext hbase (fun k y _ => ⟨E k, (hdone k).keeps _ _ _⟩) N' (by
      intro y t'' _ hnot hAt
      refine hcont _ _ t'' hAt (fun k => ?_) hnot hm
      have : (fdI orth).update (volts (q + x)) (some (S.scaled k (q + x))) (some (y k)) (E k) = (E k, .ok ()) :=
        (hdone k).keeps _ _ _
      rw [this]
      exact hdone k)
    obtain ⟨K, hK, hc⟩ := this
    exact ⟨K, by omega, hc⟩

/-- Newton steps in slices of the length `M`, of which at most `ν` are made before the next evaluation, until the set points
are met.  `f` is the factor by which what is missing is reduced at least each time, up to `Δ`. -/
theorem sliced_phase {S : Setup n m} (hS : S.Sound) {κ δ ρ σ a f Δ : ℝ} (hbend : NearlyAffine S κ δ) (hκ : 0 ≤ κ) (hδ : 0 ≤ δ)
    (hσ : Conditioned S σ) (hρ0 : 0 ≤ ρ) (hρσ : 2 * ρ + κ < σ) {orth : Orth n}
    {lstsq : Newton.Lstsq (Fin n)} (hls : Newton.LstsqSpec lstsq) {M : ℝ} (hM : 0 < M) {ν : Nat} (hν : 1 ≤ ν)
    (ha : a = (ρ + κ) / (σ - ρ)) (hΔ : Δ = 2 * δ / (1 - a)) (hf : (1 + a) / 2 ≤ f) {B : ℝ}
    (hB : B - ((1 - a) * (σ - ρ) * (ν * M) - δ) ≤ f * B) (hf1 : f ≤ 1)
    {G : Fin m → Vec n} (hfrob : frob (G - S.slope) ≤ ρ) (N : Nat) :
    ∀ (E : Fin m → FD n) (q : Vec n) (t : OneTuner (FD n) n) (b : ℝ), At S (some M, (ν : Int)) E q t →
      (∀ k, Done (G k) (E k)) → 0 ≤ b → b ≤ B → len (S.miss q) ≤ b + Δ →
      (∀ k tol, (S.row k).tolerance = some tol → f ^ (N + 1) * b + Δ < tol) →
      CompletesWithin S (fdI orth) lstsq (3 * ν * (N + 1)) ⟨t, volts q, 0, true, none⟩ := by
  have hτ : 0 < σ - ρ := by linarith
  have ha0 : 0 ≤ a := by rw [ha]; positivity
  have ha1 : a < 1 := by rw [ha, div_lt_one hτ]; linarith
  have hf0 : 0 ≤ f := by linarith
  have h1a : 0 < 1 - a := by linarith
  have hfix : (1 - a) * Δ = 2 * δ := by
    rw [hΔ]; field_simp
  have hΔ0 : 0 ≤ Δ := by rw [hΔ]; positivity
  have hg : 0 ≤ (1 - a) * (σ - ρ) * (ν * M) := by positivity
  have hstep := sliced_step hS hbend hκ hδ hσ hρ0 hρσ hls hM hν ha hΔ hf hB hf1 hfrob (orth := orth)
  induction N with
  | zero =>
    intro E q t b h hdone hb0 hbB hb htol
    have := hstep E q t b h hdone hb0 hbB hb 0 (by
      intro q' E' t' _ _ hnot hm
      exfalso
      apply hnot
      refine met_of_small fun k tol hk => ?_
      have := htol k tol hk
      rw [zero_add, pow_one] at this
      linarith)
    simpa using this
  | succ N ih =>
    intro E q t b h hdone hb0 hbB hb htol
    have := hstep E q t b h hdone hb0 hbB hb (3 * ν * (N + 1)) (by
      intro q' E' t' hAt hd' _ hm
      refine ih E' q' t' (f * b) hAt hd' (mul_nonneg hf0 hb0) ?_ hm fun k tol hk => ?_
      · nlinarith
      · have := htol k tol hk
        rw [pow_succ, mul_assoc] at this
        exact this)
    rw [show 3 * ν * (N + 1 + 1) = 3 * ν + 3 * ν * (N + 1) by ring]
    exact this

end Qtune.EndToEnd
