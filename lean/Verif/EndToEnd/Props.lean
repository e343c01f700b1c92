import Verif.EndToEnd.Cycles
import Verif.Gradient.FDProps

/-!
# End to end: an affine device is tuned after a bounded number of calls of `iterate`

`Setup`/`Setup.Valid` (`Lemmas`) describe the device and the target: responses
`∑ i, grad k i * v i + offset k` with linearly independent gradients, any rescaling factors other
than 0, any set points, any positive tolerances (or none), evaluators that report the responses
with any variances.
-/

namespace Qtune.EndToEnd

open Qtune.Tuner Qtune.Gradient Qtune.Autotuner

variable {n m : Nat}

/-- Finite difference estimators keep a gradient that they have found. -/
theorem fd_keeps (S : Setup n m) (orth : Orth n) (k : Fin m) :
    Keeps S (fdI orth) k (Done fun i => S.grad k i / S.scale k) where
  silent := fun _ h tj => h.silent tj
  gradient := fun e h => by
    obtain ⟨C, hC⟩ := h.est
    simp [fdI, hC]
  update := fun e h q y _ => ⟨e, h.keeps _ _ _, h⟩

/-- The estimators have the gradients that agree with all differences between the measured points, `c` and the
points at the displacements `d`. -/
def Secants (S : Setup n m) (c : Vec n) (d : Fin n → Vec n) (G : Fin m → Vec n) (E : Fin m → FD n) : Prop :=
  ∀ k, Done (G k) (E k) ∧ ∀ j, ∑ i, G k i * d j i = S.scaled k (c + d j) - S.scaled k c

/-- Collecting measurements: `r + 1` measurements are missing.  `K` calls are needed when all gradients
are known. -/
theorem collect_phase {S : Setup n m} (hS : S.Sound) {μ : Val × Int} {B : ℝ} {η : Option ℝ} {orth : Orth n}
    (ho : OrthSpec orth) {lstsq : Newton.Lstsq (Fin n)} (c : Vec n) (hμ : ∀ M, μ.1 = some M → 2 * B ≤ M) (K : Nat)
    (hK : ∀ (E : Fin m → FD n) (q : Vec n) (t : OneTuner (FD n) n) (d : Fin n → Vec n) (G : Fin m → Vec n),
      At S μ E q t → len (q - c) ≤ B → LinearIndependent ℝ d → Spread η d → Secants S c d G E →
      CompletesWithin S (fdI orth) lstsq K ⟨t, volts q, 0, true, none⟩) :
    ∀ (r k : Nat) (_ : k + r + 1 = n) (d : Fin k → Vec n) (_ : LinearIndependent ℝ d) (_ : Spread η d)
      (E : Fin m → FD n) (q : Vec n) (t : OneTuner (FD n) n), At S μ E q t → len (q - c) ≤ B →
      (∀ j, Col B η (S.scaled j) c d (E j)) →
      CompletesWithin S (fdI orth) lstsq (3 * (r + 1) + K) ⟨t, volts q, 0, true, none⟩ := by
  intro r
  induction r with
  | zero =>
    intro k hk d hd hsp E q t h hq hcol
    obtain ⟨x, E', hli, hsp', hlen, hcol', hnext⟩ :=
      request_phase hS ho (lstsq := lstsq) h hcol (by omega) hd hsp hμ hq
    obtain ⟨t', hnext, hbase⟩ := hnext
    refine cycle_or hS hnext hbase ?_ K ?_
    · intro j y _
      obtain ⟨e', -, he', -⟩ := (hcol' j).last (by omega) x y hli
      exact ⟨e', he'⟩
    · intro y t'' _ _ hAt
      have hlast : ∀ j, ∃ g, Done g ((fdI orth).update (volts (c + x)) (some (S.scaled j (c + x))) (some (y j))
          (E' j)).1 ∧ ∀ a, ∑ i, g i * (Fin.snoc d x : Fin (k + 1) → Vec n) a i =
            S.scaled j (c + (Fin.snoc d x : Fin (k + 1) → Vec n) a) - S.scaled j c := by
        intro j
        obtain ⟨e', g, he', hdone, hg⟩ := (hcol' j).last (by omega) x (y j) hli
        have he : (fdI orth).update (volts (c + x)) (some (S.scaled j (c + x))) (some (y j)) (E' j) = _ := he'
        rw [he]
        exact ⟨g, hdone, hg⟩
      choose G hG using hlast
      subst hk
      exact hK _ _ _ _ G hAt (by simpa using hlen) hli hsp' hG
  | succ r ih =>
    intro k hk d hd hsp E q t h hq hcol
    obtain ⟨x, E', hli, hsp', hlen, hcol', hnext⟩ :=
      request_phase hS ho (lstsq := lstsq) h hcol (by omega) hd hsp hμ hq
    obtain ⟨t', hnext, hbase⟩ := hnext
    have := cycle_or hS (q := q) hnext hbase (fun j y _ => by
      obtain ⟨e', he', -⟩ := (hcol' j).next (by omega) x y
      exact ⟨e', he'⟩) (3 * (r + 1) + K) (fun y t'' _ _ hAt => by
      refine ih (k + 1) (by omega) _ hli hsp' _ _ _ hAt (by simpa using hlen) fun j => ?_
      obtain ⟨e', he', hc⟩ := (hcol' j).next (by omega) x (y j)
      have he : (fdI orth).update (volts (c + x)) (some (S.scaled j (c + x))) (some (y j)) (E' j) = _ := he'
      rw [he]
      exact hc)
    rw [show 3 * (r + 1 + 1) + K = 3 + (3 * (r + 1) + K) by ring]
    exact this

/-- First evaluation and collection of the gradients for any responses.  `K` calls are needed after that. -/
theorem first_phase_any {S : Setup n m} (hS : S.Sound) (hn : n ≠ 0) {orth : Orth n} (ho : OrthSpec orth)
    {lstsq : Newton.Lstsq (Fin n)} (c : Vec n) (t : OneTuner (FD n) n) {B : ℝ} {η : Option ℝ}
    {start : Fin m → Option (Vec n)} {eps : Fin m → Vec n} (hstart : ∀ k, start k = none ∨ start k = some c)
    (heps : ∀ k i, 0 < eps k i ∧ eps k i ≤ B) (hsame : ∀ k h, η = some h → ∀ i, eps k i = h)
    (hbase : Base S (t.maxStep, t.maxNumber) (fun k => FD.new (start k) (eps k) false) t)
    (hμ : ∀ M, t.maxStep = some M → 2 * B ≤ M) (K : Nat)
    (hK : ∀ (E : Fin m → FD n) (q : Vec n) (t' : OneTuner (FD n) n) (d : Fin n → Vec n) (G : Fin m → Vec n),
      At S (t.maxStep, t.maxNumber) E q t' → len (q - c) ≤ B → LinearIndependent ℝ d → Spread η d →
      Secants S c d G E →
      CompletesWithin S (fdI orth) lstsq K ⟨t', volts q, 0, true, none⟩) :
    CompletesWithin S (fdI orth) lstsq (3 * n + 1 + K) (fresh t (volts c)) := by
  have hupd : ∀ k, ∀ y ∈ S.seen k, ∃ e', (fdI orth).update (volts c) (some (S.scaled k c)) (some y)
      (FD.new (start k) (eps k) false) = (e', .ok ()) := fun k y _ => by
    obtain ⟨e', he', -⟩ := Col.start (f := S.scaled k) hn c (eps k) (fun i => (heps k i).1)
      (fun i => (heps k i).2) (hsame k) (start k) (hstart k) y
    exact ⟨e', he'⟩
  obtain ⟨y, t', b, hev, -, hAt, hb⟩ := evaluation
    (lstsq := lstsq) (I := fdI orth) hS hbase c hupd
  have h1 : iterates (hierarchy (fdI orth) lstsq S.outs) 1 (fresh t (volts c)) =
      .ok ⟨t', volts c, if b then 1 else 0, !b, none⟩ := by
    have : (iterate (hierarchy (fdI orth) lstsq S.outs) (.ok ()) (fresh t (volts c))).1 =
        ⟨t', volts c, if b then 1 else 0, !b, none⟩ ∧
        (iterate (hierarchy (fdI orth) lstsq S.outs) (.ok ()) (fresh t (volts c))).2.2 = .ok () := by
      cases b <;> simp [iterate, fresh, hierarchy, isComplete, finish, hev]
    unfold iterates
    rcases hi : iterate (hierarchy (fdI orth) lstsq S.outs) (.ok ()) (fresh t (volts c)) with ⟨s₁, ev, r⟩
    rw [hi] at this
    simp only at this
    obtain ⟨rfl, rfl⟩ := this
    rfl
  cases b with
  | true => exact ⟨1, by omega, _, h1, rfl, c, rfl, hb.1 rfl⟩
  | false =>
    have hB : 0 ≤ B := by
      obtain ⟨k⟩ : Nonempty (Fin m) := ⟨⟨0, Nat.pos_of_ne_zero hS.nonempty⟩⟩
      have := heps k ⟨0, Nat.pos_of_ne_zero hn⟩
      linarith
    obtain ⟨M, hM, s', hs', hc⟩ := collect_phase hS (B := B) ho (lstsq := lstsq) c hμ K hK (n - 1) 0
      (by omega) (fun j : Fin 0 => (j.elim0 : Vec n)) (linearIndependent_empty_type)
      (fun _ _ => ⟨fun j => j.elim0, fun j => j.elim0⟩) _ c t' hAt
      (by simpa [len] using hB) fun j => by
        obtain ⟨e', he', hcol⟩ := Col.start (f := S.scaled j) hn c (eps j) (fun i => (heps j i).1)
          (fun i => (heps j i).2) (hsame j) (start j) (hstart j) (y j)
        have he : (fdI orth).update (volts c) (some (S.scaled j c)) (some (y j))
          (FD.new (start j) (eps j) false) = _ := he'
        rw [he]
        exact hcol
    refine ⟨1 + M, by omega, s', ?_, hc⟩
    rw [iterates_add _ 1 M _ _ h1]
    exact hs'

/-- The tuner as it is set up: the target of `S`, one fresh one-sided finite difference estimator for
each parameter with steps of at most `B`, no queued voltages. -/
structure Initial (S : Setup n m) (c : Vec n) (B : ℝ) (t : OneTuner (FD n) n) : Prop where
  target : t.solver.target = S.target
  /-- the estimators start at `c` or without a position, with positive step sizes -/
  ests : ∃ (start : Fin m → Option (Vec n)) (eps : Fin m → Vec n),
    (∀ k, start k = none ∨ start k = some c) ∧ (∀ k i, 0 < eps k i ∧ eps k i ≤ B) ∧
    t.solver.ests = List.ofFn fun k => FD.new (start k) (eps k) false
  gates : t.solver.gates = S.gates
  index : t.solver.values.index = S.target.names
  lastIndex : t.lastValues.index ⊆ S.target.names
  queued : t.queued = 0

/-- A vector is known from its products with independent vectors. -/
theorem eq_of_products {d : Fin n → Vec n} (hd : LinearIndependent ℝ d) {g g' : Vec n}
    (h : ∀ j, ∑ i, g i * d j i = ∑ i, g' i * d j i) : g = g' := by
  let b := basisOfLinearIndependentOfCardEqFinrank' d hd (by simp)
  let φ : Vec n → Vec n →ₗ[ℝ] ℝ := fun g =>
    { toFun := fun v => ∑ i, g i * v i
      map_add' := fun v w => by simp [mul_add, Finset.sum_add_distrib]
      map_smul' := fun a v => by
        simp only [Pi.smul_apply, smul_eq_mul, RingHom.id_apply, Finset.mul_sum]
        exact Finset.sum_congr rfl fun i _ => by ring }
  have hφ : φ g = φ g' := b.ext fun j => by
    have : b j = d j := by
      simp only [b]
      rw [coe_basisOfLinearIndependentOfCardEqFinrank']
    rw [this]
    exact h j
  funext i
  have := congrArg (fun ψ : Vec n →ₗ[ℝ] ℝ => ψ (Pi.single i 1)) hφ
  simpa [φ, Pi.single_apply] using this

/-- First evaluation and collection of the gradients.  `K` calls are needed after that. -/
theorem first_phase {S : Setup n m} (hS : S.Valid) {orth : Orth n} (ho : OrthSpec orth)
    {lstsq : Newton.Lstsq (Fin n)} (c : Vec n) (t : OneTuner (FD n) n) {B : ℝ} (ht : Initial S c B t)
    (hμ : ∀ M, t.maxStep = some M → 2 * B ≤ M) (K : Nat)
    (hK : ∀ (E : Fin m → FD n) (q : Vec n) (t' : OneTuner (FD n) n), At S (t.maxStep, t.maxNumber) E q t' →
      len (q - c) ≤ B →
      (∀ k, Done (fun i => S.grad k i / S.scale k) (E k)) →
      CompletesWithin S (fdI orth) lstsq K ⟨t', volts q, 0, true, none⟩) :
    CompletesWithin S (fdI orth) lstsq (3 * n + 1 + K) (fresh t (volts c)) := by
  have hn : n ≠ 0 := by
    rintro rfl
    have := hS.independent.fintype_card_le_finrank
    simp at this
    exact hS.nonempty this
  obtain ⟨start, eps, hstart, heps, hests⟩ := ht.ests
  refine first_phase_any hS.toSound hn ho c t (η := none) hstart heps (by simp)
    ⟨ht.target, hests, ht.gates, ht.index, rfl, rfl, ht.queued, ht.lastIndex⟩ hμ K ?_
  intro E q t' d G hAt hq hd _ hG
  refine hK E q t' hAt hq fun k => ?_
  have : G k = fun i => S.grad k i / S.scale k := eq_of_products hd fun j => by
    rw [(hG k).2 j]
    have := (Setup.scaled_affine hS.affine k).sub (c + d j) c
    simpa using this
  rw [← this]
  exact (hG k).1

/-- **C75**.  An autotuner whose single tuner uses a Newton solver and one-sided finite difference
estimators tunes every affine device with linearly independent gradients: for every number of gates
`n` and of parameters `m`, every start, every choice of the orthogonal vectors and of the least
squares solutions, `iterate` called at most `3 * (n + 1) + 1` times never raises and ends with the
tuning complete, and the voltages then meet all set points within their tolerances. -/
theorem affine_device_is_tuned {S : Setup n m} (hS : S.Valid) {orth : Orth n} (ho : OrthSpec orth)
    {lstsq : Newton.Lstsq (Fin n)} (hl : Newton.LstsqSpec lstsq) (c : Vec n) (t : OneTuner (FD n) n) {B : ℝ}
    (ht : Initial S c B t) (hmax : t.maxStep = none) :
    CompletesWithin S (fdI orth) lstsq (3 * (n + 1) + 1) (fresh t (volts c)) := by
  rw [show 3 * (n + 1) + 1 = 3 * n + 1 + 3 by ring]
  refine first_phase hS ho c t ht (by rw [hmax]; simp) 3 ?_
  intro E q t' h _ hdone
  obtain ⟨x, hsug, -, hx, -⟩ := newton_suggestion hS (I := fdI orth) hl h (fd_keeps S orth) hdone
  exact newton_phase hS h (fd_keeps S orth) hdone hsug hx (by rw [hmax]; simp)

/-! ### A device and a tuner that meet the hypotheses -/

/-- Two gates `g0`, `g1`; one parameter `x` with response `2 * g0 - g1 + 5`, set point 3, tolerance
`1/10`, rescaling factor 4. -/
noncomputable def sampleSetup : Setup 2 1 where
  row := fun _ => ⟨"x", some 3, none, none, some (1 / 10), none, some 4⟩
  desired := fun _ => 3
  scale := fun _ => 4
  grad := fun _ => ![2, -1]
  response := fun _ v => 2 * v 0 - v 1 + 5
  gates := [0, 1]
  outs := fun v => [.ok ([("x", do let a ← v 0; let b ← v 1; pure (2 * a - b + 5))], [("x", some 1)])]
  variances := {1}

theorem sampleSetup_valid : sampleSetup.Valid where
  gates_nodup := by simp [sampleSetup]
  gates_all := by intro i; fin_cases i <;> simp [sampleSetup]
  names := by simp [sampleSetup, Setup.target, Target.names]
  desired := fun _ => rfl
  scale := fun _ => ⟨rfl, by simp [sampleSetup]⟩
  tolerance := fun k tol h => by
    simp [sampleSetup] at h
    rw [← h]
    norm_num
  independent := by
    rw [linearIndependent_unique_iff]
    intro h
    have := congrFun h 0
    simp [sampleSetup] at this
  nonempty := by simp
  affine := ⟨fun _ => 5, fun k v => by simp [sampleSetup, Fin.sum_univ_two, sub_eq_add_neg]⟩
  evaluators := fun v => by
    refine ⟨fun _ => 1, fun _ => rfl, ?_⟩
    simp [evaluate, collect, sampleSetup, Setup.target, Target.names, Setup.response, Series.select,
      Series.val, List.lookup, Fin.sum_univ_two]

noncomputable def sampleTuner : OneTuner (FD 2) 2 :=
  ⟨⟨sampleSetup.target, [FD.new none (fun _ => 1 / 2) false], [0, 1], fun _ => none, [("x", none)]⟩,
    [], fun _ => none, [], [], false, [], none, 5, 0⟩

/-- The hypotheses are satisfiable, and the first voltages do not meet the set point. -/
example : Initial sampleSetup (fun _ => 8) (1 / 2) sampleTuner ∧ sampleTuner.maxStep = none ∧ ¬ SetPointsMet sampleSetup (fun _ => 8) := by
  constructor
  · refine ⟨rfl, ⟨fun _ => none, fun _ _ => 1 / 2, fun _ => .inl rfl, fun _ _ => by norm_num, rfl⟩, rfl,
      rfl, by simp [sampleTuner, Series.index], rfl⟩
  · refine ⟨rfl, ?_⟩
    intro h
    have := h 0 (1 / 10) rfl
    simp [sampleSetup, Setup.response, Fin.sum_univ_two] at this
    norm_num [abs_lt] at this

example : ∃ (orth : Orth 2) (lstsq : Newton.Lstsq (Fin 2)), OrthSpec orth ∧ Newton.LstsqSpec lstsq := by
  obtain ⟨o, ho⟩ := exists_orth 2
  obtain ⟨l, hl⟩ := Newton.exists_lstsq (ι := Fin 2)
  exact ⟨o, l, ho, hl⟩

end Qtune.EndToEnd
