import Verif.EndToEnd.PropsDrift

/-! # Phases of a tuning that goes on -/

namespace Qtune.EndToEnd

open Qtune.Tuner Qtune.Gradient Qtune.Autotuner

variable {n m : Nat} {X : Type}

/-- `N` calls of `iterate` can be made. -/
def RunsOn (D : Noisy n m) (I : Newton.EstI X (Fin n)) (lstsq : Newton.Lstsq (Fin n)) (N : Nat)
    (s : Autotuner.State (OneTuner X n) (Volt (Fin n) × Nat) (Volt (Fin n))) : Prop :=
  ∃ s', iterates (noisy I lstsq D.outs) N s = .ok s'

/-- One cycle after which the set points are not met. -/
theorem runs_cycle {D : Noisy n m} (hD : D.Sound) {j : Nat} {μ : Val × Int} {I : Newton.EstI X (Fin n)}
    {lstsq : Newton.Lstsq (Fin n)}
    {t t' : OneTuner X n} {E' : Fin m → X} {q q' : Vec n}
    (hnext : nextVoltages (Newton.solver I lstsq) [] t = (t', .ok (volts q')))
    (hbase : Base (D.at j) μ E' t')
    (hupd : ∀ k, ∀ y ∈ (D.at j).seen k,
      ∃ e', I.update (volts q') (some ((D.at j).scaled k q')) (some y) (E' k) = (e', .ok ()))
    (hnot : ¬ SetPointsMet (D.at j) q') (N : Nat)
    (hcont : ∀ (y : Fin m → ℝ) (t'' : OneTuner X n),
      At (D.at j) μ (fun k => (I.update (volts q') (some ((D.at j).scaled k q')) (some (y k)) (E' k)).1) q' t'' →
      RunsOn D I lstsq N ⟨t'', (volts q', j + 1), 0, true, none⟩) :
    RunsOn D I lstsq (3 + N) ⟨t, (volts q, j), 0, true, none⟩ := by
  obtain ⟨y, t'', b, hev, hy, hAt, hb⟩ := evaluation (hD j) (I := I) (lstsq := lstsq) hbase q' hupd
  have hrun := noisy_cycle (D := D) (q := q) hnext hev
  cases b with
  | true => exact absurd (hb.1 rfl) hnot
  | false =>
    obtain ⟨s', hs'⟩ := hcont y t'' hAt
    refine ⟨s', ?_⟩
    rw [iterates_add _ 3 N _ _ hrun]
    exact hs'

/-- Collecting measurements: `r + 1` measurements are missing. -/
theorem runs_collect {D : Noisy n m} (hD : D.Sound) {μ : Val × Int} {B : ℝ} {η : Option ℝ} {orth : Orth n}
    (ho : OrthSpec orth) {lstsq : Newton.Lstsq (Fin n)} (j₀ : Nat) (c : Vec n) (hμ : ∀ M, μ.1 = some M → 2 * B ≤ M)
    (hfar : ∀ i ≤ j₀ + n, ∀ q, len (q - c) ≤ B → ¬ SetPointsMet (D.at i) q) (K : Nat)
    (hK : ∀ (E : Fin m → FD n) (q : Vec n) (t : OneTuner (FD n) n) (d : Fin n → Vec n) (G : Fin m → Vec n),
      At (D.at (j₀ + n)) μ E q t → len (q - c) ≤ B → LinearIndependent ℝ d → Spread η d → NoisySecants D j₀ c d G E →
      RunsOn D (fdI orth) lstsq K ⟨t, (volts q, j₀ + n + 1), 0, true, none⟩) :
    ∀ (r k : Nat) (_ : k + r + 1 = n) (d : Fin k → Vec n) (_ : LinearIndependent ℝ d) (_ : Spread η d)
      (E : Fin m → FD n) (q : Vec n) (t : OneTuner (FD n) n) (f : Fin m → Vec n → ℝ),
      At (D.at (j₀ + k)) μ E q t → len (q - c) ≤ B → Collected D j₀ c d f →
      (∀ l, Col B η (f l) c d (E l)) →
      RunsOn D (fdI orth) lstsq (3 * (r + 1) + K) ⟨t, (volts q, j₀ + k + 1), 0, true, none⟩ := by
  intro r
  induction r with
  | zero =>
    intro k hk d hd hsp E q t f h hq hf hcol
    obtain ⟨x, E', hli, hsp', hlen, hcol', hnext⟩ :=
      request_phase (hD (j₀ + k)) ho (lstsq := lstsq) h hcol (by omega) hd hsp hμ hq
    obtain ⟨t', hnext, hbase⟩ := hnext
    obtain ⟨hnc, hnd⟩ := new_point (c := c) hli
    have hcol'' : ∀ l, Col B η (extend D (j₀ + k + 1) (c + x) f l) c d (E' l) := fun l =>
      (hcol' l).congr (extend_ne hnc) fun a => extend_ne (hnd a)
    have hlast : ∀ l (y : ℝ), ∃ e' g, (fdI orth).update (volts (c + x)) (some ((D.at (j₀ + k + 1)).scaled l (c + x))) (some y)
        (E' l) = (e', .ok ()) ∧ Done g e' ∧ ∀ a, ∑ i, g i * (Fin.snoc d x : Fin (k + 1) → Vec n) a i =
          extend D (j₀ + k + 1) (c + x) f l (c + (Fin.snoc d x : Fin (k + 1) → Vec n) a) -
            extend D (j₀ + k + 1) (c + x) f l c := by
      intro l y
      have := (hcol'' l).last (by omega) x y hli
      rw [extend_at] at this
      exact this
    refine runs_cycle hD hnext (Noisy.base (j' := j₀ + k + 1) hbase) ?_
      (hfar (j₀ + k + 1) (by omega) (c + x) (by simpa using hlen)) K ?_
    · intro l y _
      obtain ⟨e', -, he', -⟩ := hlast l y
      exact ⟨e', he'⟩
    · intro y t'' hAt
      choose e' G he' hdone hG using fun l => hlast l (y l)
      have hsn := hf.snoc hli
      subst hk
      refine hK _ _ _ _ G hAt (by simpa using hlen) hli hsp' ⟨_, hsn, fun l => ⟨?_, hG l⟩⟩
      dsimp only
      rw [he' l]
      exact hdone l
  | succ r ih =>
    intro k hk d hd hsp E q t f h hq hf hcol
    obtain ⟨x, E', hli, hsp', hlen, hcol', hnext⟩ :=
      request_phase (hD (j₀ + k)) ho (lstsq := lstsq) h hcol (by omega) hd hsp hμ hq
    obtain ⟨t', hnext, hbase⟩ := hnext
    obtain ⟨hnc, hnd⟩ := new_point (c := c) hli
    have hcol'' : ∀ l, Col B η (extend D (j₀ + k + 1) (c + x) f l) c d (E' l) := fun l =>
      (hcol' l).congr (extend_ne hnc) fun a => extend_ne (hnd a)
    have hstep : ∀ l (y : ℝ), ∃ e', (fdI orth).update (volts (c + x)) (some ((D.at (j₀ + k + 1)).scaled l (c + x))) (some y)
        (E' l) = (e', .ok ()) ∧ Col B η (extend D (j₀ + k + 1) (c + x) f l) c (Fin.snoc d x : Fin (k + 1) → Vec n) e' := by
      intro l y
      have := (hcol'' l).next (by omega) x y
      rw [extend_at] at this
      exact this
    have := runs_cycle hD (q := q) hnext (Noisy.base (j' := j₀ + k + 1) hbase) (fun l y _ => by
      obtain ⟨e', he', -⟩ := hstep l y
      exact ⟨e', he'⟩) (hfar (j₀ + k + 1) (by omega) (c + x) (by simpa using hlen)) (3 * (r + 1) + K) (fun y t'' hAt => by
      refine ih (k + 1) (by omega) _ hli hsp' _ _ _ _ hAt (by simpa using hlen) (hf.snoc hli) fun l => ?_
      obtain ⟨e', he', hc⟩ := hstep l (y l)
      rw [he']
      exact hc)
    rw [show 3 * (r + 1 + 1) + K = 3 + (3 * (r + 1) + K) by ring]
    exact this

/-- First evaluation and collection of the gradients.  `K` calls are needed after that. -/
theorem runs_first {D : Noisy n m} (hD : D.Sound) (hn : n ≠ 0) {orth : Orth n} (ho : OrthSpec orth)
    {lstsq : Newton.Lstsq (Fin n)} (c : Vec n) (t : OneTuner (FD n) n) {η : ℝ} (hη : 0 < η) (j : Nat)
    (ht : InitialEven D.device c η t)
    (hfar : ∀ i ≤ j + n, ∀ q, len (q - c) ≤ η → ¬ SetPointsMet (D.at i) q) (K : Nat)
    (hK : ∀ (E : Fin m → FD n) (q : Vec n) (t' : OneTuner (FD n) n) (d : Fin n → Vec n) (G : Fin m → Vec n),
      At (D.at (j + n)) (none, t.maxNumber) E q t' → len (q - c) ≤ η → LinearIndependent ℝ d → Spread (some η) d →
      NoisySecants D j c d G E →
      RunsOn D (fdI orth) lstsq K ⟨t', (volts q, j + n + 1), 0, true, none⟩) :
    RunsOn D (fdI orth) lstsq (3 * n + 1 + K) (fresh t (volts c, j)) := by
  obtain ⟨start, hstart, hests⟩ := ht.ests
  have hbase : Base (D.at j) (none, t.maxNumber) (fun k => FD.new (start k) (fun _ => η) false) t :=
    ⟨ht.target, hests, ht.gates, ht.index, ht.maxStep, rfl, ht.queued, ht.lastIndex⟩
  have hstart' : ∀ k (y : ℝ), ∃ e', (fdI orth).update (volts c) (some ((D.at j).scaled k c)) (some y)
      (FD.new (start k) (fun _ => η) false) = (e', .ok ()) ∧
      Col η (some η) ((D.at j).scaled k) c (fun j : Fin 0 => (j.elim0 : Vec n)) e' := fun k y =>
    Col.start (f := (D.at j).scaled k) hn c (fun _ => η) (fun _ => hη)
      (fun _ => le_refl _) (fun h hh i => by cases hh; rfl) (start k) (hstart k) y
  obtain ⟨y, t', b, hev, -, hAt, hb⟩ := evaluation
    (lstsq := lstsq) (I := fdI orth) (hD j) hbase c (fun k y _ => by
      obtain ⟨e', he', -⟩ := hstart' k y
      exact ⟨e', he'⟩)
  have hev' : isTuned (Newton.solver (fdI orth) lstsq) (D.outs j (volts c)) (volts c) t = (t', .ok b) := hev
  have h1 : iterates (noisy (fdI orth) lstsq D.outs) 1 (fresh t (volts c, j)) =
      .ok ⟨t', (volts c, j + 1), if b then 1 else 0, !b, none⟩ := by
    have : (iterate (noisy (fdI orth) lstsq D.outs) (.ok ()) (fresh t (volts c, j))).1 =
        ⟨t', (volts c, j + 1), if b then 1 else 0, !b, none⟩ ∧
        (iterate (noisy (fdI orth) lstsq D.outs) (.ok ()) (fresh t (volts c, j))).2.2 = .ok () := by
      cases b <;> simp [iterate, fresh, noisy, isComplete, finish, hev']
    unfold iterates
    rcases hi : iterate (noisy (fdI orth) lstsq D.outs) (.ok ()) (fresh t (volts c, j)) with ⟨s₁, ev, r⟩
    rw [hi] at this
    simp only at this
    obtain ⟨rfl, rfl⟩ := this
    rfl
  cases b with
  | true => exact absurd (hb.1 rfl) (hfar j (by omega) c (by simpa [len] using hη.le))
  | false =>
    obtain ⟨s', hs'⟩ := runs_collect hD (B := η) ho (lstsq := lstsq) j c (by simp) hfar K hK (n - 1) 0
      (by omega) (fun j : Fin 0 => (j.elim0 : Vec n)) (linearIndependent_empty_type)
      (fun _ _ => ⟨fun j => j.elim0, fun j => j.elim0⟩) _ c t' (fun l => (D.at j).scaled l) hAt
      (by simpa [len] using hη.le) ⟨fun _ => rfl, fun a => a.elim0⟩ fun l => by
        obtain ⟨e', he', hcol⟩ := hstart' l (y l)
        rw [he']
        exact hcol
    refine ⟨s', ?_⟩
    rw [show 3 * n + 1 + K = 1 + (3 * (n - 1 + 1) + K) by omega, iterates_add _ 1 _ _ _ h1]
    exact hs'

end Qtune.EndToEnd
