import Verif.EndToEnd.LocalRun
import Verif.EndToEnd.SliceRun

/-! # Newton steps in slices that stay in a region -/

namespace Qtune.EndToEnd

open Qtune.Tuner Qtune.Gradient Qtune.Autotuner

variable {n m : Nat} {X : Type}

/-- The rest of the way in the region `Z`, as `walk_phase`. -/
theorem walk_inside {S : Setup n m} (hS : S.Sound) {Z : Vec n → Prop} {I : Newton.EstI X (Fin n)} {lstsq : Newton.Lstsq (Fin n)}
    {μ : Val × Int} {E : Fin m → X} {q₀ x : Vec n} {t₀ : OneTuner X n} (h₀ : At S μ E q₀ t₀)
    {A : Fin m → X → Prop} (hA : ∀ k e, A k e → ∀ q, ∀ y ∈ S.seen k,
      ∃ e', I.update (volts q) (some (S.scaled k q)) (some y) e = (e', .ok ()) ∧ A k e')
    (hdone : ∀ k, A k (E k)) {M : ℝ} (hM : 0 < M)
    (hmax : t₀.maxStep = some M) (hlong : M < len x)
    (hshift : ∀ q' : Vec n, Newton.suggest I lstsq [] { t₀.solver with pos := volts q' } =
      ({ t₀.solver with pos := volts q' }, .ok fun i => some (some ((q' + x) i)))) (N : Nat) :
    ∀ (j : Nat) (q : Vec n) (t : OneTuner X n), Way t₀ q t → left (len x) M t = j + 1 →
      (∀ i : Nat, i ≤ j + 1 → Z (q + ((i : ℝ) * (M / len x)) • x)) →
      (∀ (E' : Fin m → X) (t'' : OneTuner X n), (∀ k, A k (E' k)) →
        ¬ SetPointsMet S (q + ((j + 1 : ℝ) * (M / len x)) • x) →
        At S μ E' (q + ((j + 1 : ℝ) * (M / len x)) • x) t'' →
        CompletesInside S I lstsq Z N
          ⟨t'', volts (q + ((j + 1 : ℝ) * (M / len x)) • x), 0, true, none⟩) →
      CompletesInside S I lstsq Z (3 * (j + 1) + N) ⟨t, volts q, 0, true, none⟩ := by
  intro j
  induction j with
  | zero =>
    intro q t h hleft hZ hcont
    have hZ0 : Z q := by simpa using hZ 0 (by omega)
    have hZ1 : Z (q + (M / len x) • x) := by simpa using hZ 1 (by omega)
    have hnext := way_next (I := I) (lstsq := lstsq) hM hmax hlong hshift h
    rw [hleft] at hnext
    have hb : Base S μ E { t with queued := ((0 : Nat) : Int) + 1 - 1 } := by
      refine ⟨?_, ?_, ?_, ?_, ?_, ?_, by simp, ?_⟩
      · simp only [h.solver]; exact h₀.target
      · simp only [h.solver]; exact h₀.ests
      · simp only [h.solver]; exact h₀.gates
      · simp only [h.solver]; exact h₀.index
      · exact h.maxStep.trans h₀.maxStep
      · exact h.maxNumber.trans h₀.maxNumber
      · simp only [h.lastValues]; exact h₀.lastIndex
    have hupd : ∀ k, ∀ y ∈ S.seen k, ∃ e', I.update (volts (q + (M / len x) • x))
        (some (S.scaled k (q + (M / len x) • x))) (some y) (E k) = (e', .ok ()) ∧ A k e' :=
      fun k y hy => hA k _ (hdone k) _ y hy
    have := cycle_inside hS (q := q) hZ0 hZ1 hnext hb (fun k y hy => by
      obtain ⟨e', he', -⟩ := hupd k y hy
      exact ⟨e', he'⟩) N (by
      intro y t'' hy hnot hAt
      have hq : q + ((((0 : Nat) : ℝ) + 1) * (M / len x)) • x = q + (M / len x) • x := by simp
      have := hcont (fun k => (I.update (volts (q + (M / len x) • x))
        (some (S.scaled k (q + (M / len x) • x))) (some (y k)) (E k)).1) t'' (fun k => by
        obtain ⟨e', he', hA'⟩ := hupd k (y k) (hy k)
        rw [he']
        exact hA') (by rw [hq]; exact hnot) (by rw [hq]; exact hAt)
      rw [hq] at this
      exact this)
    simpa using this
  | succ j ih =>
    intro q t h hleft hZ hcont
    have hZ0 : Z q := by simpa using hZ 0 (by omega)
    have hZ1 : Z (q + (M / len x) • x) := by simpa using hZ 1 (by omega)
    have hnext := way_next (I := I) (lstsq := lstsq) hM hmax hlong hshift h
    rw [hleft] at hnext
    have hq : (((j + 1 : Nat) : Int) + 1 - 1) = (j : Int) + 1 := by push_cast; ring
    rw [hq] at hnext
    let q' : Vec n := q + (M / len x) • x
    let t'' : OneTuner X n := { t with
      queued := (j : Int) + 1
      lastVoltage := volts q'
      solver := { t.solver with pos := volts q' } }
    have hev : isTuned (Newton.solver I lstsq) (S.outs (volts q')) (volts q')
        { t with queued := (j : Int) + 1 } = (t'', .ok false) := by
      unfold isTuned
      simp only
      rw [if_pos (by omega)]
      rfl
    have hstates := cycle_states (S := S) (q := q) hnext hev
    have hway : Way t₀ q' t'' := by
      refine ⟨?_, rfl, h.lastFailed, h.maxStep, h.maxNumber, h.lastValues⟩
      simp only [t'', h.solver]
    have hleft' : left (len x) M t'' = j + 1 := by
      unfold left
      rw [if_neg (by simp only [t'']; omega)]
    have hend : q' + ((j + 1 : ℝ) * (M / len x)) • x =
        q + ((((j + 1 : Nat) : ℝ) + 1) * (M / len x)) • x := by
      simp only [q']
      push_cast
      rw [add_assoc, ← add_smul]
      congr 2
      ring
    obtain ⟨K, hK, ⟨s', hs', hc⟩, hin⟩ := ih q' t'' hway hleft' (by
      intro i hi
      have := hZ (i + 1) (by omega)
      have he : q' + ((i : ℝ) * (M / len x)) • x = q + (((i + 1 : Nat) : ℝ) * (M / len x)) • x := by
        simp only [q']
        push_cast
        rw [add_assoc, ← add_smul]
        congr 2
        ring
      rw [he]
      exact this) (by rw [hend]; exact hcont)
    refine ⟨K + 3, by omega, ⟨s', by rw [(hstates K).2.2]; exact hs', hc⟩, fun i hi => ?_⟩
    rcases i with _ | _ | _ | i
    · exact ⟨_, rfl, q, rfl, hZ0⟩
    · exact ⟨_, (hstates 0).1, q, rfl, hZ0⟩
    · exact ⟨_, (hstates 0).2.1, q', rfl, hZ1⟩
    · rw [(hstates i).2.2]
      exact hin i (by omega)

/-- One Newton step in slices of the length `M`, of which at most `ν` are made before the next evaluation, near `c`. -/
theorem sliced_step_inside {S : Setup n m} (hS : S.Sound) {c : Vec n} {R : ℝ} {κ δ ρ σ a f Δ : ℝ} (hbend : NearlyAffineOn S (Near c R) κ δ) (hκ : 0 ≤ κ) (hδ : 0 ≤ δ)
    (hσ : Conditioned S σ) (hρ0 : 0 ≤ ρ) (hρσ : 2 * ρ + κ < σ) {orth : Orth n}
    {lstsq : Newton.Lstsq (Fin n)} (hls : Newton.LstsqSpec lstsq) {M : ℝ} (hM : 0 < M) {ν : Nat} (hν : 1 ≤ ν)
    (ha : a = (ρ + κ) / (σ - ρ)) (hΔ : Δ = 2 * δ / (1 - a)) (hf : (1 + a) / 2 ≤ f) {B : ℝ}
    (hB : B - ((1 - a) * (σ - ρ) * (ν * M) - δ) ≤ f * B) (hf1 : f ≤ 1)
    {G : Fin m → Vec n} (hfrob : frob (G - S.slope) ≤ ρ) :
    ∀ (E : Fin m → FD n) (q : Vec n) (t : OneTuner (FD n) n) (b : ℝ), At S (some M, (ν : Int)) E q t →
      (∀ k, Done (G k) (E k)) → 0 ≤ b → b ≤ B → len (S.miss q) ≤ b + Δ → ∀ (J : Nat) N',
      len (q - c) + (len (S.miss q) + (J + 1) * δ) / ((1 - a) * (σ - ρ)) ≤ R →
      (∀ (q' : Vec n) (E' : Fin m → FD n) (t' : OneTuner (FD n) n), At S (some M, (ν : Int)) E' q' t' →
        (∀ k, Done (G k) (E' k)) → ¬ SetPointsMet S q' → len (S.miss q') ≤ f * b + Δ →
        len (q' - c) + (len (S.miss q') + J * δ) / ((1 - a) * (σ - ρ)) ≤ R →
        CompletesInside S (fdI orth) lstsq (Near c R) N' ⟨t', volts q', 0, true, none⟩) →
      CompletesInside S (fdI orth) lstsq (Near c R) (3 * ν + N') ⟨t, volts q, 0, true, none⟩ := by
  have hτ : 0 < σ - ρ := by linarith
  have ha0 : 0 ≤ a := by rw [ha]; positivity
  have ha1 : a < 1 := by rw [ha, div_lt_one hτ]; linarith
  have hf0 : 0 ≤ f := by linarith
  have h1a : 0 < 1 - a := by linarith
  have hfix : (1 - a) * Δ = 2 * δ := by
    rw [hΔ]; field_simp
  have hΔ0 : 0 ≤ Δ := by rw [hΔ]; positivity
  have hg : 0 ≤ (1 - a) * (σ - ρ) * (ν * M) := by positivity
  intro E q t b h hdone hb0 hbB hb J N' hR hcont
  have hsil : ∀ k tj, (fdI orth).require S.gates tj (E k) = (E k, .ok none) := fun k tj => (hdone k).silent tj
  have hGE : ∀ k, (fdI orth).estimate (E k) = some fun i => some (G k i) := fun k => by
    obtain ⟨C, hC⟩ := (hdone k).est
    simp [fdI, hC]
  obtain ⟨x, hsug, hx, hlen⟩ := known_suggestion hS hls h (G := G) (I := fdI orth) hsil hGE hτ (perturbed hσ hfrob)
  have hw : 0 < (1 - a) * (σ - ρ) := by positivity
  have he0 : 0 ≤ len (S.miss q) := len_nonneg _
  have hlx : len x ≤ len (S.miss q) / ((1 - a) * (σ - ρ)) := by
    rw [le_div_iff₀ hw]
    have h1 := mul_le_mul_of_nonneg_left hlen h1a.le
    have h2 : (1 - a) * len (S.miss q) ≤ len (S.miss q) := by nlinarith
    calc len x * ((1 - a) * (σ - ρ)) = (1 - a) * ((σ - ρ) * len x) := by ring
      _ ≤ (1 - a) * len (S.miss q) := h1
      _ ≤ _ := h2
  have htri : ∀ θ : ℝ, 0 ≤ θ → len (q + θ • x - c) ≤ len (q - c) + θ * len x := by
    intro θ h0
    have : q + θ • x - c = (q - c) + θ • x := by abel
    rw [this]
    refine (len_add _ _).trans ?_
    rw [len_smul, abs_of_nonneg h0]
  have hsplit : (len (S.miss q) + (J + 1) * δ) / ((1 - a) * (σ - ρ)) =
      len (S.miss q) / ((1 - a) * (σ - ρ)) + (J + 1) * δ / ((1 - a) * (σ - ρ)) := by ring
  have hrest : 0 ≤ (J + 1) * δ / ((1 - a) * (σ - ρ)) := by positivity
  have hnear : ∀ θ : ℝ, 0 ≤ θ → θ ≤ 1 → Near c R (q + θ • x) := by
    intro θ h0 h1
    unfold Near
    have h2 := htri θ h0
    have h3 : θ * len x ≤ 1 * len x := mul_le_mul_of_nonneg_right h1 (len_nonneg _)
    rw [hsplit] at hR
    linarith
  have hnear0 : Near c R q := by simpa using hnear 0 le_rfl zero_le_one
  have hpart : ∀ θ, 0 ≤ θ → θ ≤ 1 → len (S.miss (q + θ • x)) ≤
      len (S.miss q) - θ * (1 - a) * len (S.miss q) + δ := by
    intro θ h0 h1
    rw [ha]
    refine part_step (δ := δ) (e' := S.miss (q + θ • x)) hκ hρ0 h0 h1 (by linarith) hfrob hx hlen ?_
    refine le_trans (le_of_eq ?_) (hbend q (θ • x) hnear0 (hnear θ h0 h1))
    congr 1
    funext k
    simp only [Setup.miss, Setup.slope]
    ring
  have hleave : ∀ θ : ℝ, 0 ≤ θ → θ ≤ 1 →
      len (q + θ • x - c) + (len (S.miss (q + θ • x)) + J * δ) / ((1 - a) * (σ - ρ)) ≤ R := by
    intro θ h0 h1
    refine le_trans ?_ hR
    have h2 := htri θ h0
    have h3 := hpart θ h0 h1
    have h4 : θ * len x ≤ (θ * (1 - a) * len (S.miss q)) / ((1 - a) * (σ - ρ)) := by
      rw [le_div_iff₀ hw]
      calc θ * len x * ((1 - a) * (σ - ρ)) = θ * (1 - a) * ((σ - ρ) * len x) := by ring
        _ ≤ _ := mul_le_mul_of_nonneg_left hlen (by positivity)
    have h5 : (len (S.miss (q + θ • x)) + J * δ) / ((1 - a) * (σ - ρ)) ≤
        (len (S.miss q) - θ * (1 - a) * len (S.miss q) + δ + J * δ) / ((1 - a) * (σ - ρ)) :=
      (div_le_div_iff_of_pos_right hw).2 (by linarith)
    have h6 : (len (S.miss q) - θ * (1 - a) * len (S.miss q) + δ + J * δ) / ((1 - a) * (σ - ρ)) =
        (len (S.miss q) + (J + 1) * δ) / ((1 - a) * (σ - ρ)) - (θ * (1 - a) * len (S.miss q)) / ((1 - a) * (σ - ρ)) := by ring
    rw [h6] at h5
    linarith
  by_cases hlong : M < len x
  · obtain ⟨hint, hone⟩ := toInt_div hM hlong
    have hL : 0 < len x := lt_trans hM hlong
    obtain ⟨j, hj⟩ : ∃ j : Nat, j + 1 = min ⌊len x / M⌋₊ ν := ⟨min ⌊len x / M⌋₊ ν - 1, by omega⟩
    have hway : Way t q t := ⟨by
      have := h.pos
      rcases t with ⟨⟨_, _, _, _, _⟩, _, _, _, _, _, _, _, _, _⟩
      simp only at this ⊢
      rw [this], h.lastVoltage, h.lastFailed, rfl, rfl, rfl⟩
    have hleft : left (len x) M t = j + 1 := by
      unfold left
      rw [if_pos h.queued, h.maxNumber, hint]
      show min ((⌊len x / M⌋₊ : Nat) : Int) (ν : Int) = _
      omega
    obtain ⟨θ, hθ⟩ : ∃ θ : ℝ, θ = (j + 1 : ℝ) * (M / len x) := ⟨_, rfl⟩
    have hθL : θ * len x = (j + 1 : ℝ) * M := by
      rw [hθ]; field_simp
    have hfloor := Nat.floor_le (a := len x / M) (by positivity)
    have hjF : ((j + 1 : Nat) : ℝ) ≤ (⌊len x / M⌋₊ : ℝ) := by
      exact_mod_cast (show j + 1 ≤ ⌊len x / M⌋₊ by omega)
    have hθ0 : 0 ≤ θ := by rw [hθ]; positivity
    have hθ1 : θ ≤ 1 := by
      have h3 : ((j + 1 : Nat) : ℝ) ≤ len x / M := hjF.trans hfloor
      rw [le_div_iff₀ hM] at h3
      push_cast at h3
      rw [hθ, ← mul_div_assoc, div_le_one hL]
      exact h3
    have hp := hpart θ hθ0 hθ1
    have hmiss : len (S.miss (q + θ • x)) ≤ f * b + Δ := by
      by_cases hcap : ν ≤ ⌊len x / M⌋₊
      · -- the number of slices is limited
        have hjν : (j + 1 : ℝ) = ν := by
          have : j + 1 = ν := by omega
          exact_mod_cast this
        have h1 : (σ - ρ) * (ν * M) ≤ θ * len (S.miss q) := by
          have := mul_le_mul_of_nonneg_left hlen hθ0
          rw [hjν] at hθL
          calc (σ - ρ) * (ν * M) = θ * ((σ - ρ) * len x) := by rw [← hθL]; ring
            _ ≤ _ := this
        exact capped_bound h1a.le hf1 hp hb hbB h1 (by rw [← mul_assoc]; exact hB)
      · -- at least half of the step is made
        have hjf : (⌊len x / M⌋₊ : ℝ) = j + 1 := by
          have : ⌊len x / M⌋₊ = j + 1 := by omega
          exact_mod_cast this
        have hlt := Nat.lt_floor_add_one (len x / M)
        rw [hjf] at hlt
        rw [div_lt_iff₀ hM] at hlt
        have hj1 : (0 : ℝ) ≤ j := Nat.cast_nonneg j
        have hθ2 : 1 / 2 ≤ θ := by
          by_contra hc
          push Not at hc
          have := mul_lt_mul_of_pos_right hc hL
          rw [hθL] at this
          nlinarith
        exact half_bound h1a.le ha0 hb0 (len_nonneg _) hp hb hθ2 hf hfix
    have := walk_inside hS (Z := Near c R) (lstsq := lstsq) (I := fdI orth) h (A := fun k => Done (G k))
      (fun k e he q' y _ => ⟨e, he.keeps _ _ _, he⟩) hdone hM h.maxStep hlong
      (known_shift hS h hsil hGE hsug) N' j q t hway hleft (fun i hi => hnear _ (by positivity) (by
        refine le_trans ?_ (hθ ▸ hθ1)
        have : (i : ℝ) ≤ j + 1 := by exact_mod_cast hi
        exact mul_le_mul_of_nonneg_right this (by positivity))) (by
        rw [← hθ]
        intro E' t'' hdone' hnot hAt
        exact hcont _ E' t'' hAt hdone' hnot hmiss (hleave θ hθ0 hθ1))
    obtain ⟨K, hK, hc⟩ := this
    have hjν : 3 * (j + 1) ≤ 3 * ν := by omega
    exact ⟨K, by omega, hc⟩
  · obtain ⟨t', hnext, hbase⟩ := suggestion (E' := E) (q' := q + x) h (by
      intro M' hM'
      simp only [Option.some.injEq] at hM'
      rw [← hM']
      simpa using not_lt.1 hlong) hsug
    have hm : len (S.miss (q + x)) ≤ f * b + Δ := by
      have h1 := hpart 1 zero_le_one le_rfl
      rw [one_smul] at h1
      exact half_bound h1a.le ha0 hb0 (len_nonneg _) h1 hb (by norm_num) hf hfix
    have := cycle_inside hS (q := q) hnear0 (by simpa using hnear 1 zero_le_one le_rfl) hnext hbase (fun k y _ => ⟨E k, (hdone k).keeps _ _ _⟩) N' (by
      intro y t'' _ hnot hAt
      refine hcont _ _ t'' hAt (fun k => ?_) hnot hm (by simpa using hleave 1 zero_le_one le_rfl)
      have : (fdI orth).update (volts (q + x)) (some (S.scaled k (q + x))) (some (y k)) (E k) = (E k, .ok ()) :=
        (hdone k).keeps _ _ _
      rw [this]
      exact hdone k)
    obtain ⟨K, hK, hc⟩ := this
    exact ⟨K, by omega, hc⟩

/-- Newton steps in slices of the length `M`, of which at most `ν` are made before the next evaluation, until the set points
are met, near `c`.  `f` is the factor by which what is missing is reduced at least each time, up to `Δ`. -/
theorem sliced_inside {S : Setup n m} (hS : S.Sound) {c : Vec n} {R : ℝ} {κ δ ρ σ a f Δ : ℝ} (hbend : NearlyAffineOn S (Near c R) κ δ) (hκ : 0 ≤ κ) (hδ : 0 ≤ δ)
    (hσ : Conditioned S σ) (hρ0 : 0 ≤ ρ) (hρσ : 2 * ρ + κ < σ) {orth : Orth n}
    {lstsq : Newton.Lstsq (Fin n)} (hls : Newton.LstsqSpec lstsq) {M : ℝ} (hM : 0 < M) {ν : Nat} (hν : 1 ≤ ν)
    (ha : a = (ρ + κ) / (σ - ρ)) (hΔ : Δ = 2 * δ / (1 - a)) (hf : (1 + a) / 2 ≤ f) {B : ℝ}
    (hB : B - ((1 - a) * (σ - ρ) * (ν * M) - δ) ≤ f * B) (hf1 : f ≤ 1)
    {G : Fin m → Vec n} (hfrob : frob (G - S.slope) ≤ ρ) (N : Nat) :
    ∀ (E : Fin m → FD n) (q : Vec n) (t : OneTuner (FD n) n) (b : ℝ), At S (some M, (ν : Int)) E q t →
      (∀ k, Done (G k) (E k)) → 0 ≤ b → b ≤ B → len (S.miss q) ≤ b + Δ →
      (∀ k tol, (S.row k).tolerance = some tol → f ^ (N + 1) * b + Δ < tol) →
      len (q - c) + (len (S.miss q) + (N + 1) * δ) / ((1 - a) * (σ - ρ)) ≤ R →
      CompletesInside S (fdI orth) lstsq (Near c R) (3 * ν * (N + 1)) ⟨t, volts q, 0, true, none⟩ := by
  have hτ : 0 < σ - ρ := by linarith
  have ha0 : 0 ≤ a := by rw [ha]; positivity
  have ha1 : a < 1 := by rw [ha, div_lt_one hτ]; linarith
  have hf0 : 0 ≤ f := by linarith
  have h1a : 0 < 1 - a := by linarith
  have hfix : (1 - a) * Δ = 2 * δ := by
    rw [hΔ]; field_simp
  have hΔ0 : 0 ≤ Δ := by rw [hΔ]; positivity
  have hg : 0 ≤ (1 - a) * (σ - ρ) * (ν * M) := by positivity
  have hstep := sliced_step_inside hS (R := R) (c := c) hbend hκ hδ hσ hρ0 hρσ hls hM hν ha hΔ hf hB hf1 hfrob (orth := orth)
  induction N with
  | zero =>
    intro E q t b h hdone hb0 hbB hb htol hR
    have := hstep E q t b h hdone hb0 hbB hb 0 0 (by simpa using hR) (by
      intro q' E' t' _ _ hnot hm _
      exfalso
      apply hnot
      refine met_of_small fun k tol hk => ?_
      have := htol k tol hk
      rw [zero_add, pow_one] at this
      linarith)
    simpa using this
  | succ N ih =>
    intro E q t b h hdone hb0 hbB hb htol hR
    have := hstep E q t b h hdone hb0 hbB hb (N + 1) (3 * ν * (N + 1)) hR (by
      intro q' E' t' hAt hd' _ hm hR'
      refine ih E' q' t' (f * b) hAt hd' (mul_nonneg hf0 hb0) ?_ hm (fun k tol hk => ?_) (by push_cast at hR'; exact hR')
      · nlinarith
      · have := htol k tol hk
        rw [pow_succ, mul_assoc] at this
        exact this)
    rw [show 3 * ν * (N + 1 + 1) = 3 * ν + 3 * ν * (N + 1) by ring]
    exact this

end Qtune.EndToEnd
