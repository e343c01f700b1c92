import Verif.EndToEnd.NoiseSpec
import Verif.EndToEnd.PropsRobust

/-! # Phases of the tuning of a noisy device -/

namespace Qtune.EndToEnd

open Qtune.Tuner Qtune.Gradient Qtune.Autotuner

variable {n m : Nat} {X : Type}

/-- The tuning is complete within `N` calls, the values measured last meet the set points. -/
def CompletesN (D : Noisy n m) (I : Newton.EstI X (Fin n)) (lstsq : Newton.Lstsq (Fin n)) (N : Nat)
    (s : Autotuner.State (OneTuner X n) (Volt (Fin n) × Nat) (Volt (Fin n))) : Prop :=
  ∃ M ≤ N, ∃ s', iterates (noisy I lstsq D.outs) M s = .ok s' ∧ isComplete (noisy I lstsq D.outs) s' = true ∧
    ∃ (q : Vec n) (j : Nat), s'.expt = (volts q, j + 1) ∧ SetPointsMet (D.at j) q

/-- Suggestion, setting the voltages and evaluation. -/
theorem noisy_cycle {D : Noisy n m} {I : Newton.EstI X (Fin n)} {lstsq : Newton.Lstsq (Fin n)} {t t' t'' : OneTuner X n}
    {q q' : Vec n} {b : Bool} {j : Nat}
    (hnext : nextVoltages (Newton.solver I lstsq) [] t = (t', .ok (volts q')))
    (hev : isTuned (Newton.solver I lstsq) (D.outs j (volts q')) (volts q') t' =
      (t'', .ok b)) :
    iterates (noisy I lstsq D.outs) 3 ⟨t, (volts q, j), 0, true, none⟩ =
      .ok ⟨t'', (volts q', j + 1), if b then 1 else 0, !b, none⟩ := by
  let H := noisy I lstsq D.outs
  have h1 : (iterate H (.ok ()) ⟨t, (volts q, j), 0, true, none⟩).1 =
      ⟨t', (volts q, j), 0, false, some (volts q')⟩ ∧
      (iterate H (.ok ()) ⟨t, (volts q, j), 0, true, none⟩).2.2 = .ok () := by
    simp [iterate, H, noisy, isComplete, hnext, finish]
  have h2 : (iterate H (.ok ()) ⟨t', (volts q, j), 0, false, some (volts q')⟩).1 =
      ⟨t', (volts q', j), 0, false, none⟩ ∧
      (iterate H (.ok ()) ⟨t', (volts q, j), 0, false, some (volts q')⟩).2.2 = .ok () := by
    simp [iterate, H, noisy, isComplete, finish, volts]
  have h3 : (iterate H (.ok ()) ⟨t', (volts q', j), 0, false, none⟩).1 =
      ⟨t'', (volts q', j + 1), if b then 1 else 0, !b, none⟩ ∧
      (iterate H (.ok ()) ⟨t', (volts q', j), 0, false, none⟩).2.2 = .ok () := by
    cases b <;> simp [iterate, H, noisy, isComplete, finish, hev]
  have step : ∀ (N : Nat) (s s' : Autotuner.State (OneTuner X n) (Volt (Fin n) × Nat) (Volt (Fin n))),
      (iterate H (.ok ()) s).1 = s' ∧ (iterate H (.ok ()) s).2.2 = .ok () →
      iterates H (N + 1) s = iterates H N s' := by
    rintro N s s' ⟨ha, hb⟩
    conv_lhs => unfold iterates
    rcases hi : iterate H (.ok ()) s with ⟨s₁, ev, r⟩
    rw [hi] at ha hb
    simp only at ha hb
    subst ha hb
    rfl
  rw [step 2 _ _ h1, step 1 _ _ h2, step 0 _ _ h3]
  rfl

theorem Noisy.base {D : Noisy n m} {j j' : Nat} {μ : Val × Int} {E : Fin m → X} {t : OneTuner X n}
    (h : Base (D.at j) μ E t) : Base (D.at j') μ E t :=
  ⟨h.target, h.ests, h.gates, h.index, h.maxStep, h.maxNumber, h.queued, h.lastIndex⟩

/-- One cycle either completes the tuning or leads to the next state. -/
theorem noisy_cycle_or {D : Noisy n m} (hD : D.Sound) {j : Nat} {μ : Val × Int} {I : Newton.EstI X (Fin n)}
    {lstsq : Newton.Lstsq (Fin n)}
    {t t' : OneTuner X n} {E' : Fin m → X} {q q' : Vec n}
    (hnext : nextVoltages (Newton.solver I lstsq) [] t = (t', .ok (volts q')))
    (hbase : Base (D.at j) μ E' t')
    (hupd : ∀ k, ∀ y ∈ (D.at j).seen k,
      ∃ e', I.update (volts q') (some ((D.at j).scaled k q')) (some y) (E' k) = (e', .ok ()))
    (N : Nat)
    (hcont : ∀ (y : Fin m → ℝ) (t'' : OneTuner X n), ¬ SetPointsMet (D.at j) q' →
      At (D.at j) μ (fun k => (I.update (volts q') (some ((D.at j).scaled k q')) (some (y k)) (E' k)).1) q' t'' →
      CompletesN D I lstsq N ⟨t'', (volts q', j + 1), 0, true, none⟩) :
    CompletesN D I lstsq (3 + N) ⟨t, (volts q, j), 0, true, none⟩ := by
  obtain ⟨y, t'', b, hev, hy, hAt, hb⟩ := evaluation (hD j) (I := I) (lstsq := lstsq) hbase q' hupd
  have hrun := noisy_cycle (D := D) (q := q) hnext hev
  cases b with
  | true =>
    refine ⟨3, by omega, _, hrun, rfl, q', j, rfl, ?_⟩
    exact hb.1 rfl
  | false =>
    obtain ⟨M, hM, s', hs', hc⟩ := hcont y t'' (fun hm => by
      have := hb.2 hm
      cases this) hAt
    refine ⟨3 + M, by omega, s', ?_, hc⟩
    rw [iterates_add _ 3 M _ _ hrun]
    exact hs'

/-- `f` has the values that were measured at `c` in the evaluation number `j₀` and at the displacements `d` in the
next evaluations. -/
def Collected (D : Noisy n m) (j₀ : Nat) (c : Vec n) {k : Nat} (d : Fin k → Vec n) (f : Fin m → Vec n → ℝ) : Prop :=
  (∀ l, f l c = (D.at j₀).scaled l c) ∧
    ∀ a, ∃ i, j₀ ≤ i ∧ i ≤ j₀ + k ∧ ∀ l, f l (c + d a) = (D.at i).scaled l (c + d a)

/-- A point that has not been measured before. -/
theorem new_point {c x : Vec n} {k : Nat} {d : Fin k → Vec n}
    (hli : LinearIndependent ℝ (Fin.snoc d x : Fin (k + 1) → Vec n)) : c + x ≠ c ∧ ∀ a, c + x ≠ c + d a := by
  constructor
  · intro h
    have := hli.ne_zero (Fin.last k)
    rw [Fin.snoc_last] at this
    exact this (by simpa using h)
  · intro a h
    have h1 : (Fin.snoc d x : Fin (k + 1) → Vec n) (Fin.last k) = (Fin.snoc d x : Fin (k + 1) → Vec n) a.castSucc := by
      rw [Fin.snoc_last, Fin.snoc_castSucc]
      exact add_left_cancel h
    have := hli.injective h1
    exact absurd this.symm (Fin.castSucc_lt_last a).ne

theorem Col.congr {B : ℝ} {η : Option ℝ} {f f' : Vec n → ℝ} {c : Vec n} {k : Nat} {d : Fin k → Vec n} {e : FD n}
    (h : Col B η f c d e) (h0 : f' c = f c) (hd : ∀ a, f' (c + d a) = f (c + d a)) : Col B η f' c d e := by
  obtain ⟨s₀, s, hst⟩ := h.stored
  exact ⟨h.pos, h.sym, h.heps, h.small, h.same, h.est, s₀, s, by simp only [hst, h0, hd]⟩

open Classical in
/-- The values with one more measurement. -/
noncomputable def extend (D : Noisy n m) (j : Nat) (p : Vec n) (f : Fin m → Vec n → ℝ) : Fin m → Vec n → ℝ :=
  fun l => Function.update (f l) p ((D.at j).scaled l p)

theorem extend_at (D : Noisy n m) (j : Nat) (p : Vec n) (f : Fin m → Vec n → ℝ) (l : Fin m) :
    extend D j p f l p = (D.at j).scaled l p := by
  simp [extend]

theorem extend_ne {D : Noisy n m} {j : Nat} {p p' : Vec n} {f : Fin m → Vec n → ℝ} {l : Fin m} (h : p ≠ p') :
    extend D j p f l p' = f l p' := by
  simp [extend, Function.update_of_ne h.symm]

theorem Collected.snoc {D : Noisy n m} {c x : Vec n} {k j₀ : Nat} {d : Fin k → Vec n} {f : Fin m → Vec n → ℝ}
    (h : Collected D j₀ c d f) (hli : LinearIndependent ℝ (Fin.snoc d x : Fin (k + 1) → Vec n)) :
    Collected D j₀ c (Fin.snoc d x : Fin (k + 1) → Vec n) (extend D (j₀ + k + 1) (c + x) f) := by
  obtain ⟨hc, hd⟩ := new_point (c := c) hli
  obtain ⟨h1, h2⟩ := h
  refine ⟨fun l => by rw [extend_ne hc]; exact h1 l, fun a => ?_⟩
  refine Fin.lastCases ?_ (fun a => ?_) a
  · rw [Fin.snoc_last]
    exact ⟨j₀ + k + 1, by omega, by omega, extend_at D _ _ f⟩
  · rw [Fin.snoc_castSucc]
    obtain ⟨i, hi1, hi2, hi⟩ := h2 a
    exact ⟨i, hi1, by omega, fun l => by rw [extend_ne (hd a)]; exact hi l⟩

/-- The estimators have the gradients that agree with the differences of the measured values. -/
def NoisySecants (D : Noisy n m) (j₀ : Nat) (c : Vec n) (d : Fin n → Vec n) (G : Fin m → Vec n) (E : Fin m → FD n) :
    Prop :=
  ∃ f, Collected D j₀ c d f ∧ ∀ k, Done (G k) (E k) ∧ ∀ j, ∑ i, G k i * d j i = f k (c + d j) - f k c

/-- Collecting measurements: `r + 1` measurements are missing. -/
theorem noisy_collect {D : Noisy n m} (hD : D.Sound) {μ : Val × Int} {B : ℝ} {η : Option ℝ} {orth : Orth n}
    (ho : OrthSpec orth) {lstsq : Newton.Lstsq (Fin n)} (j₀ : Nat) (c : Vec n) (hμ : ∀ M, μ.1 = some M → 2 * B ≤ M) (K : Nat)
    (hK : ∀ (E : Fin m → FD n) (q : Vec n) (t : OneTuner (FD n) n) (d : Fin n → Vec n) (G : Fin m → Vec n),
      At (D.at (j₀ + n)) μ E q t → len (q - c) ≤ B → LinearIndependent ℝ d → Spread η d → NoisySecants D j₀ c d G E →
      CompletesN D (fdI orth) lstsq K ⟨t, (volts q, j₀ + n + 1), 0, true, none⟩) :
    ∀ (r k : Nat) (_ : k + r + 1 = n) (d : Fin k → Vec n) (_ : LinearIndependent ℝ d) (_ : Spread η d)
      (E : Fin m → FD n) (q : Vec n) (t : OneTuner (FD n) n) (f : Fin m → Vec n → ℝ),
      At (D.at (j₀ + k)) μ E q t → len (q - c) ≤ B → Collected D j₀ c d f →
      (∀ l, Col B η (f l) c d (E l)) →
      CompletesN D (fdI orth) lstsq (3 * (r + 1) + K) ⟨t, (volts q, j₀ + k + 1), 0, true, none⟩ := by
  intro r
  induction r with
  | zero =>
    intro k hk d hd hsp E q t f h hq hf hcol
    obtain ⟨x, E', hli, hsp', hlen, hcol', hnext⟩ :=
      request_phase (hD (j₀ + k)) ho (lstsq := lstsq) h hcol (by omega) hd hsp hμ hq
    obtain ⟨t', hnext, hbase⟩ := hnext
    obtain ⟨hnc, hnd⟩ := new_point (c := c) hli
    have hcol'' : ∀ l, Col B η (extend D (j₀ + k + 1) (c + x) f l) c d (E' l) := fun l =>
      (hcol' l).congr (extend_ne hnc) fun a => extend_ne (hnd a)
    have hlast : ∀ l (y : ℝ), ∃ e' g, (fdI orth).update (volts (c + x)) (some ((D.at (j₀ + k + 1)).scaled l (c + x))) (some y)
        (E' l) = (e', .ok ()) ∧ Done g e' ∧ ∀ a, ∑ i, g i * (Fin.snoc d x : Fin (k + 1) → Vec n) a i =
          extend D (j₀ + k + 1) (c + x) f l (c + (Fin.snoc d x : Fin (k + 1) → Vec n) a) -
            extend D (j₀ + k + 1) (c + x) f l c := by
      intro l y
      have := (hcol'' l).last (by omega) x y hli
      rw [extend_at] at this
      exact this
    refine noisy_cycle_or hD hnext (Noisy.base (j' := j₀ + k + 1) hbase) ?_ K ?_
    · intro l y _
      obtain ⟨e', -, he', -⟩ := hlast l y
      exact ⟨e', he'⟩
    · intro y t'' _ hAt
      choose e' G he' hdone hG using fun l => hlast l (y l)
      have hsn := hf.snoc hli
      subst hk
      refine hK _ _ _ _ G hAt (by simpa using hlen) hli hsp' ⟨_, hsn, fun l => ⟨?_, hG l⟩⟩
      dsimp only
      rw [he' l]
      exact hdone l
  | succ r ih =>
    intro k hk d hd hsp E q t f h hq hf hcol
    obtain ⟨x, E', hli, hsp', hlen, hcol', hnext⟩ :=
      request_phase (hD (j₀ + k)) ho (lstsq := lstsq) h hcol (by omega) hd hsp hμ hq
    obtain ⟨t', hnext, hbase⟩ := hnext
    obtain ⟨hnc, hnd⟩ := new_point (c := c) hli
    have hcol'' : ∀ l, Col B η (extend D (j₀ + k + 1) (c + x) f l) c d (E' l) := fun l =>
      (hcol' l).congr (extend_ne hnc) fun a => extend_ne (hnd a)
    have hstep : ∀ l (y : ℝ), ∃ e', (fdI orth).update (volts (c + x)) (some ((D.at (j₀ + k + 1)).scaled l (c + x))) (some y)
        (E' l) = (e', .ok ()) ∧ Col B η (extend D (j₀ + k + 1) (c + x) f l) c (Fin.snoc d x : Fin (k + 1) → Vec n) e' := by
      intro l y
      have := (hcol'' l).next (by omega) x y
      rw [extend_at] at this
      exact this
    have := noisy_cycle_or hD (q := q) hnext (Noisy.base (j' := j₀ + k + 1) hbase) (fun l y _ => by
      obtain ⟨e', he', -⟩ := hstep l y
      exact ⟨e', he'⟩) (3 * (r + 1) + K) (fun y t'' _ hAt => by
      refine ih (k + 1) (by omega) _ hli hsp' _ _ _ _ hAt (by simpa using hlen) (hf.snoc hli) fun l => ?_
      obtain ⟨e', he', hc⟩ := hstep l (y l)
      rw [he']
      exact hc)
    rw [show 3 * (r + 1 + 1) + K = 3 + (3 * (r + 1) + K) by ring]
    exact this

/-- First evaluation and collection of the gradients.  `K` calls are needed after that. -/
theorem noisy_first {D : Noisy n m} (hD : D.Sound) (hn : n ≠ 0) {orth : Orth n} (ho : OrthSpec orth)
    {lstsq : Newton.Lstsq (Fin n)} (c : Vec n) (t : OneTuner (FD n) n) {η : ℝ} (hη : 0 < η) (j : Nat)
    (ht : InitialEven D.device c η t) (K : Nat)
    (hK : ∀ (E : Fin m → FD n) (q : Vec n) (t' : OneTuner (FD n) n) (d : Fin n → Vec n) (G : Fin m → Vec n),
      At (D.at (j + n)) (none, t.maxNumber) E q t' → len (q - c) ≤ η → LinearIndependent ℝ d → Spread (some η) d →
      NoisySecants D j c d G E →
      CompletesN D (fdI orth) lstsq K ⟨t', (volts q, j + n + 1), 0, true, none⟩) :
    CompletesN D (fdI orth) lstsq (3 * n + 1 + K) (fresh t (volts c, j)) := by
  obtain ⟨start, hstart, hests⟩ := ht.ests
  have hbase : Base (D.at j) (none, t.maxNumber) (fun k => FD.new (start k) (fun _ => η) false) t :=
    ⟨ht.target, hests, ht.gates, ht.index, ht.maxStep, rfl, ht.queued, ht.lastIndex⟩
  have hstart' : ∀ k (y : ℝ), ∃ e', (fdI orth).update (volts c) (some ((D.at j).scaled k c)) (some y)
      (FD.new (start k) (fun _ => η) false) = (e', .ok ()) ∧
      Col η (some η) ((D.at j).scaled k) c (fun j : Fin 0 => (j.elim0 : Vec n)) e' := fun k y =>
    Col.start (f := (D.at j).scaled k) hn c (fun _ => η) (fun _ => hη)
      (fun _ => le_refl _) (fun h hh i => by cases hh; rfl) (start k) (hstart k) y
  obtain ⟨y, t', b, hev, -, hAt, hb⟩ := evaluation
    (lstsq := lstsq) (I := fdI orth) (hD j) hbase c (fun k y _ => by
      obtain ⟨e', he', -⟩ := hstart' k y
      exact ⟨e', he'⟩)
  have hev' : isTuned (Newton.solver (fdI orth) lstsq) (D.outs j (volts c)) (volts c) t = (t', .ok b) := hev
  have h1 : iterates (noisy (fdI orth) lstsq D.outs) 1 (fresh t (volts c, j)) =
      .ok ⟨t', (volts c, j + 1), if b then 1 else 0, !b, none⟩ := by
    have : (iterate (noisy (fdI orth) lstsq D.outs) (.ok ()) (fresh t (volts c, j))).1 =
        ⟨t', (volts c, j + 1), if b then 1 else 0, !b, none⟩ ∧
        (iterate (noisy (fdI orth) lstsq D.outs) (.ok ()) (fresh t (volts c, j))).2.2 = .ok () := by
      cases b <;> simp [iterate, fresh, noisy, isComplete, finish, hev']
    unfold iterates
    rcases hi : iterate (noisy (fdI orth) lstsq D.outs) (.ok ()) (fresh t (volts c, j)) with ⟨s₁, ev, r⟩
    rw [hi] at this
    simp only at this
    obtain ⟨rfl, rfl⟩ := this
    rfl
  cases b with
  | true => exact ⟨1, by omega, _, h1, rfl, c, j, rfl, hb.1 rfl⟩
  | false =>
    obtain ⟨M, hM, s', hs', hc⟩ := noisy_collect hD (B := η) ho (lstsq := lstsq) j c (by simp) K hK (n - 1) 0
      (by omega) (fun j : Fin 0 => (j.elim0 : Vec n)) (linearIndependent_empty_type)
      (fun _ _ => ⟨fun j => j.elim0, fun j => j.elim0⟩) _ c t' (fun l => (D.at j).scaled l) hAt
      (by simpa [len] using hη.le) ⟨fun _ => rfl, fun a => a.elim0⟩ fun l => by
        obtain ⟨e', he', hcol⟩ := hstart' l (y l)
        rw [he']
        exact hcol
    refine ⟨1 + M, by omega, s', ?_, hc⟩
    rw [iterates_add _ 1 M _ _ h1]
    exact hs'

/-- Newton steps until the set points are met. -/
theorem noisy_phase {D : Noisy n m} (hD : D.Sound) {κ δ ρ σ : ℝ} (hκ : 0 ≤ κ)
    (hbend : ∀ j v s, len (fun k => D.measured (j + 1) k (v + s) / D.device.scale k -
      D.measured j k v / D.device.scale k - ∑ a, D.device.grad k a / D.device.scale k * s a) ≤ κ * len s + δ)
    (hσ : Conditioned D.device σ) (hρ0 : 0 ≤ ρ) (hρσ : 2 * ρ + κ < σ) {orth : Orth n}
    {lstsq : Newton.Lstsq (Fin n)} (hls : Newton.LstsqSpec lstsq) {μ : Val × Int} (hμ : μ.1 = none)
    {G : Fin m → Vec n} (hfrob : frob (G - D.device.slope) ≤ ρ) (N : Nat) :
    ∀ (E : Fin m → FD n) (q : Vec n) (t : OneTuner (FD n) n) (b : ℝ) (j : Nat), At (D.at j) μ E q t →
      (∀ k, Done (G k) (E k)) → len ((D.at j).miss q) ≤ b + δ / (1 - (ρ + κ) / (σ - ρ)) →
      (∀ k tol, (D.device.row k).tolerance = some tol →
        ((ρ + κ) / (σ - ρ)) ^ (N + 1) * b + δ / (1 - (ρ + κ) / (σ - ρ)) < tol) →
      CompletesN D (fdI orth) lstsq (3 * (N + 1)) ⟨t, (volts q, j + 1), 0, true, none⟩ := by
  have hτ : 0 < σ - ρ := by linarith
  obtain ⟨a, ha⟩ : ∃ a, a = (ρ + κ) / (σ - ρ) := ⟨_, rfl⟩
  have ha0 : 0 ≤ a := by rw [ha]; positivity
  have ha1 : a < 1 := by rw [ha, div_lt_one hτ]; linarith
  rw [← ha]
  have hfix : a * (δ / (1 - a)) + δ = δ / (1 - a) := by
    have : (1 - a) ≠ 0 := by linarith
    field_simp
    ring
  have hstep : ∀ (E : Fin m → FD n) (q : Vec n) (t : OneTuner (FD n) n) (b : ℝ) (j : Nat), At (D.at j) μ E q t →
      (∀ k, Done (G k) (E k)) → len ((D.at j).miss q) ≤ b + δ / (1 - a) →
      ∃ x, Newton.suggest (fdI orth) lstsq [] t.solver =
        ({ t.solver with ests := List.ofFn E }, .ok fun i => some (some ((q + x) i))) ∧
        len ((D.at (j + 1)).miss (q + x)) ≤ a * b + δ / (1 - a) := by
    intro E q t b j h hdone hb
    obtain ⟨x, hsug, hx, hlen⟩ := known_suggestion (hD j) hls h (G := G) (I := fdI orth)
      (fun k tj => (hdone k).silent tj) (fun k => by
        obtain ⟨C, hC⟩ := (hdone k).est
        simp [fdI, hC]) hτ (perturbed hσ hfrob)
    refine ⟨x, hsug, ?_⟩
    have h1 := robust_step (S := D.device) (δ := δ) (e' := (D.at (j + 1)).miss (q + x)) hκ hρ0 (by linarith) hfrob hx
      hlen (by
      refine le_trans (le_of_eq ?_) (hbend j q x)
      congr 1
      funext k
      simp only [Setup.miss, Setup.slope, Noisy.at]
      ring)
    rw [← ha] at h1
    have h2 := mul_le_mul_of_nonneg_left hb ha0
    rw [← hfix]
    linarith
  induction N with
  | zero =>
    intro E q t b j h hdone hb htol
    obtain ⟨x, hsug, hx⟩ := hstep E q t b j h hdone hb
    obtain ⟨t', hnext, hbase⟩ := suggestion (E' := E) (q' := q + x) h (by rw [hμ]; simp) hsug
    refine noisy_cycle_or hD hnext (Noisy.base (j' := j + 1) hbase) (fun k y _ => ⟨E k, (hdone k).keeps _ _ _⟩) 0 ?_
    intro y t'' hnot _
    exfalso
    apply hnot
    refine met_of_small fun k tol hk => ?_
    have := htol k tol hk
    rw [zero_add, pow_one] at this
    linarith
  | succ N ih =>
    intro E q t b j h hdone hb htol
    obtain ⟨x, hsug, hx⟩ := hstep E q t b j h hdone hb
    obtain ⟨t', hnext, hbase⟩ := suggestion (E' := E) (q' := q + x) h (by rw [hμ]; simp) hsug
    have := noisy_cycle_or hD (q := q) hnext (Noisy.base (j' := j + 1) hbase)
      (fun k y _ => ⟨E k, (hdone k).keeps _ _ _⟩) (3 * (N + 1)) (by
      intro y t'' _ hAt
      refine ih _ _ t'' (a * b) (j + 1) hAt (fun k => ?_) hx fun k tol hk => ?_
      · have : (fdI orth).update (volts (q + x)) (some ((D.at (j + 1)).scaled k (q + x))) (some (y k)) (E k) =
            (E k, .ok ()) := (hdone k).keeps _ _ _
        rw [this]
        exact hdone k
      · have := htol k tol hk
        rw [pow_succ, mul_assoc] at this
        exact this)
    rw [show 3 * (N + 1 + 1) = 3 + 3 * (N + 1) by ring]
    exact this

end Qtune.EndToEnd
