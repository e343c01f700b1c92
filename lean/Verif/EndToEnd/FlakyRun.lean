import Verif.EndToEnd.FlakySpec
import Verif.EndToEnd.NoiseRun
import Verif.Tuner.Props

/-! # Phases of the tuning when evaluations fail -/

namespace Qtune.EndToEnd

open Qtune.Tuner Qtune.Gradient Qtune.Autotuner

variable {n m : Nat} {X : Type}

/-- The last evaluation that worked was at `g`. -/
def Good (relevant : List String) (g : Vec n) (t : OneTuner X n) : Prop :=
  t.evaluatable.getLast? = some (volts g) ∧ t.lastValues.index = relevant

/-- An evaluation that does not fail makes the voltages evaluatable. -/
theorem isTuned_good {S' ι : Type} {I : SolverI S' ι} {outs : List Outcome} {v : Volt ι} {t t' : SubsetTuner S' ι} {b : Bool}
    (h : isTuned I outs v t = (t', .ok b)) (hq : t.queued = 0) (hf : t'.lastFailed = false) :
    t'.evaluatable = t.evaluatable ++ [v] := by
  unfold isTuned at h
  simp only at h
  rw [if_neg (by simp [hq])] at h
  split at h
  · simp at h
  · split at h
    · simp at h
    · split at h
      · simp at h
      · split at h
        · simp only [Prod.mk.injEq] at h
          rw [← h.1] at hf
          simp at hf
        · split at h
          · simp at h
          · split at h
            · simp only [Prod.mk.injEq] at h
              rw [← h.1]
            · simp only [Prod.mk.injEq] at h
              rw [← h.1]

theorem nextVoltages_good {S' ι : Type} [Fintype ι] {I : SolverI S' ι} {tuned : List String} {t : SubsetTuner S' ι} :
    (nextVoltages I tuned t).1.evaluatable = t.evaluatable ∧
      (nextVoltages I tuned t).1.lastValues = t.lastValues := by
  unfold nextVoltages
  split
  · split <;> exact ⟨rfl, rfl⟩
  · split
    · exact ⟨rfl, rfl⟩
    · simp only
      split <;> exact ⟨rfl, rfl⟩

theorem Good.next {relevant : List String} {g : Vec n} {I : Newton.EstI X (Fin n)} {lstsq : Newton.Lstsq (Fin n)}
    {t t' : OneTuner X n} {r : Except PyErr (Volt (Fin n))} (h : Good relevant g t)
    (hnext : nextVoltages (Newton.solver I lstsq) [] t = (t', r)) : Good relevant g t' := by
  have := nextVoltages_good (I := Newton.solver I lstsq) (tuned := []) (t := t)
  rw [hnext] at this
  exact ⟨by rw [this.1]; exact h.1, by rw [this.2]; exact h.2⟩

theorem good_after {relevant : List String} {I : Newton.EstI X (Fin n)} {lstsq : Newton.Lstsq (Fin n)}
    {outs : List Outcome} {q : Vec n} {t t' : OneTuner X n} {b : Bool}
    (h : isTuned (Newton.solver I lstsq) outs (volts q) t = (t', .ok b)) (hq : t.queued = 0)
    (hidx : t.lastValues.index = relevant) (hf : t'.lastFailed = false) : Good relevant q t' := by
  refine ⟨by rw [isTuned_good h hq hf]; simp, ?_⟩
  have := lastValues_index_invariant (Newton.solver I lstsq) outs (volts q) t
  rw [h] at this
  rw [this, hidx]

/-- A failed evaluation. -/
theorem failed_evaluation {S : Setup n m} {relevant : List String} {μ : Val × Int} {I : Newton.EstI X (Fin n)}
    {lstsq : Newton.Lstsq (Fin n)} {E : Fin m → X} {t : OneTuner X n} (h : Base S μ E t) {outs : List Outcome}
    (hidx : t.lastValues.index = relevant) (hno : NoResult S.target relevant outs) (v : Volt (Fin n)) :
    ∃ t', isTuned (Newton.solver I lstsq) outs v t = (t', .ok false) ∧ Base S μ E t' ∧ t'.lastFailed = true ∧
      t'.lastVoltage = v ∧ t'.evaluatable = t.evaluatable ∧ t'.lastValues.index = relevant := by
  obtain ⟨p, vars, hev, l, hl, hval⟩ := hno
  obtain ⟨p₀, v₀, -, hp, hv⟩ := evaluate_ok hev
  have hrp : rescaleValues S.target p = S.target.names.map fun l => (l, Val.div (p₀.val l) (factor S.target l)) := by
    rw [hp, rescaleValues_map]
  have hrv : (rescaleVariances S.target vars).index = S.target.names := by
    rw [hv]
    simp [rescaleVariances, Series.index, Function.comp_def]
  have hip : (rescaleValues S.target p).index = S.target.names := by
    rw [hrp]
    exact Series.index_map_mk _ _
  have hs1 := select_sub (s := rescaleValues S.target p) (labels := t.lastValues.index) (by
    rw [hip]; exact h.lastIndex)
  have hs2 := select_sub (s := rescaleVariances S.target vars) (labels := t.lastValues.index) (by
    rw [hrv]; exact h.lastIndex)
  have hn : (rescaleValues S.target p).val l = none := by
    have hmem : l ∈ S.target.names := h.lastIndex (by rw [hidx]; exact hl)
    rw [hrp, Series.val_map_mk, if_pos hmem]
    rw [hp, Series.val_map_mk, if_pos hmem] at hval
    rw [hval]
    rfl
  refine ⟨{ t with
    lastVoltage := v
    lastValues := t.lastValues.index.map fun l => (l, (rescaleValues S.target p).val l)
    lastVariances := t.lastValues.index.map fun l => (l, (rescaleVariances S.target vars).val l)
    lastFailed := true }, ?_, ?_, rfl, rfl, rfl, ?_⟩
  · unfold isTuned
    simp only
    rw [if_neg (by simp [h.queued])]
    have htarget : (Newton.solver I lstsq).target t.solver = S.target := h.target
    simp only [htarget, hev, hs1, Series.index_map_mk, hs2]
    rw [if_pos]
    rw [List.any_map, List.any_eq_true]
    exact ⟨l, by rw [hidx]; exact hl, by simp [hn]⟩
  · refine ⟨h.target, h.ests, h.gates, h.index, h.maxStep, h.maxNumber, h.queued, ?_⟩
    show Series.index (t.lastValues.index.map _) ⊆ _
    rw [Series.index_map_mk]
    exact h.lastIndex
  · show Series.index (t.lastValues.index.map _) = _
    rw [Series.index_map_mk, hidx]

theorem halved_zero (g p : Vec n) : halved g p 0 = p := by
  simp [halved]

/-- After a failed evaluation the distance to the last good point is halved. -/
theorem halving {relevant : List String} {I : Newton.EstI X (Fin n)} {lstsq : Newton.Lstsq (Fin n)} {t : OneTuner X n}
    {g p : Vec n} {i : Nat} (hg : Good relevant g t) (hf : t.lastFailed = true)
    (hv : t.lastVoltage = volts (halved g p i)) :
    nextVoltages (Newton.solver I lstsq) [] t = (t, .ok (volts (halved g p (i + 1)))) := by
  unfold nextVoltages
  rw [if_pos hf, hg.1]
  simp only
  congr 2
  rw [hv]
  funext a
  simp only [Tuner.smul, vadd, volts, Val.add_some, Val.mul_some, halved, Pi.add_apply, Pi.smul_apply, smul_eq_mul,
    Pi.sub_apply, pow_succ]
  congr 1
  ring

/-- From a suggestion to the next evaluation that works. -/
theorem flaky_cycle {S : Setup n m} (hS : S.Sound) {relevant : List String}
    {outs : Nat → Volt (Fin n) → List Outcome} {L : Nat} (hF : Flaky S relevant outs L)
    {μ : Val × Int} {I : Newton.EstI X (Fin n)} {lstsq : Newton.Lstsq (Fin n)} {E' : Fin m → X} {g p : Vec n} {j : Nat}
    (hupd : ∀ i k, ∀ y ∈ S.seen k,
      ∃ e', I.update (volts (halved g p i)) (some (S.scaled k (halved g p i))) (some y) (E' k) = (e', .ok ()))
    (N : Nat)
    (hcont : ∀ i ≤ L, ∀ (y : Fin m → ℝ) (t'' : OneTuner X n) (j' : Nat), (∀ k, y k ∈ S.seen k) →
      ¬ SetPointsMet S (halved g p i) →
      At S μ (fun k => (I.update (volts (halved g p i)) (some (S.scaled k (halved g p i))) (some (y k)) (E' k)).1)
        (halved g p i) t'' → Good relevant (halved g p i) t'' →
      CompletesFlaky S outs I lstsq N ⟨t'', (volts (halved g p i), j'), 0, true, none⟩) :
    ∀ (r i : Nat) (t t' : OneTuner X n) (q : Vec n),
      nextVoltages (Newton.solver I lstsq) [] t = (t', .ok (volts (halved g p i))) →
      Base S μ E' t' → Good relevant g t' →
      (∃ i', i ≤ i' ∧ i' ≤ i + r ∧ i' ≤ L ∧
        outs (j + i') (volts (halved g p i')) = S.outs (volts (halved g p i'))) →
      CompletesFlaky S outs I lstsq (3 * (r + 1) + N) ⟨t, (volts q, j + i), 0, true, none⟩ := by
  intro r
  induction r with
  | zero =>
    intro i t t' q hnext hbase hgood hex
    obtain ⟨i', h1, h2, h3, h4⟩ := hex
    obtain rfl : i' = i := by omega
    obtain ⟨y, t'', b, hev, hy, hAt, hb⟩ := evaluation hS (I := I) (lstsq := lstsq) hbase _ (hupd i')
    rw [← h4] at hev
    have hrun := noisy_cycle (D := ⟨S, fun _ => S.response, outs⟩) (q := q) hnext hev
    cases b with
    | true => exact ⟨3, by omega, _, hrun, rfl, _, rfl, hb.1 rfl⟩
    | false =>
      obtain ⟨M, hM, s', hs', hc⟩ := hcont i' h3 y t'' (j + i' + 1) hy (fun hm => by
        have := hb.2 hm
        cases this) hAt (good_after hev hbase.queued hgood.2 hAt.lastFailed)
      refine ⟨3 + M, by omega, s', ?_, hc⟩
      rw [iterates_add _ 3 M _ _ hrun]
      exact hs'
  | succ r ih =>
    intro i t t' q hnext hbase hgood hex
    rcases hF.either (j + i) (halved g p i) with hw | hno
    · have hL : i ≤ L := by
        obtain ⟨i', h1, _, h3, _⟩ := hex
        omega
      obtain ⟨y, t'', b, hev, hy, hAt, hb⟩ := evaluation hS (I := I) (lstsq := lstsq) hbase _ (hupd i)
      rw [← hw] at hev
      have hrun := noisy_cycle (D := ⟨S, fun _ => S.response, outs⟩) (q := q) hnext hev
      cases b with
      | true => exact ⟨3, by omega, _, hrun, rfl, _, rfl, hb.1 rfl⟩
      | false =>
        obtain ⟨M, hM, s', hs', hc⟩ := hcont i hL y t'' (j + i + 1) hy (fun hm => by
          have := hb.2 hm
          cases this) hAt (good_after hev hbase.queued hgood.2 hAt.lastFailed)
        refine ⟨3 + M, by omega, s', ?_, hc⟩
        rw [iterates_add _ 3 M _ _ hrun]
        exact hs'
    · by_cases hw : outs (j + i) (volts (halved g p i)) = S.outs (volts (halved g p i))
      · exfalso
        -- what `S` says has no NaN
        rw [hw] at hno
        obtain ⟨p', vars, hev, l, hl, hval⟩ := hno
        obtain ⟨y, -, hy⟩ := hS.evaluators (halved g p i)
        have hy' : evaluate S.target (S.outs (volts (halved g p i))) = _ := hy
        rw [hev] at hy'
        simp only [Except.ok.injEq, Prod.mk.injEq] at hy'
        have hmem : l ∈ S.target.names := hbase.lastIndex (by rw [hgood.2]; exact hl)
        rw [S.names_eq] at hmem
        obtain ⟨k, rfl⟩ := (List.mem_ofFn' _ _).1 hmem
        rw [hy'.1] at hval
        dsimp only at hval
        rw [Setup.val_ofFn hS (fun k => some (S.response k (halved g p i))) k] at hval
        cases hval
      · obtain ⟨t'', hev, hbase'', hfail, hlast, hevl, hidx⟩ :=
          failed_evaluation (I := I) (lstsq := lstsq) hbase hgood.2 hno (volts (halved g p i))
        have hgood'' : Good relevant g t'' := ⟨by rw [hevl]; exact hgood.1, hidx⟩
        have hrun := noisy_cycle (D := ⟨S, fun _ => S.response, outs⟩) (q := q) hnext hev
        have hnext' := halving (I := I) (lstsq := lstsq) hgood'' hfail hlast
        obtain ⟨M, hM, s', hs', hc⟩ := ih (i + 1) t'' t'' (halved g p i) hnext' hbase'' hgood'' (by
          obtain ⟨i', h1, h2, h3, h4⟩ := hex
          refine ⟨i', ?_, by omega, h3, h4⟩
          by_contra hlt
          obtain rfl : i' = i := by omega
          exact hw h4)
        refine ⟨3 + M, by omega, s', ?_, hc⟩
        rw [iterates_add _ 3 M _ _ hrun]
        exact hs'

/-- As `flaky_cycle`, from the suggestion. -/
theorem flaky_or {S : Setup n m} (hS : S.Sound) {relevant : List String}
    {outs : Nat → Volt (Fin n) → List Outcome} {L : Nat} (hF : Flaky S relevant outs L)
    {μ : Val × Int} {I : Newton.EstI X (Fin n)} {lstsq : Newton.Lstsq (Fin n)} {E' : Fin m → X} {g p : Vec n} {j : Nat}
    {t t' : OneTuner X n} {q : Vec n}
    (hnext : nextVoltages (Newton.solver I lstsq) [] t = (t', .ok (volts p)))
    (hbase : Base S μ E' t') (hgood : Good relevant g t)
    (hupd : ∀ i k, ∀ y ∈ S.seen k,
      ∃ e', I.update (volts (halved g p i)) (some (S.scaled k (halved g p i))) (some y) (E' k) = (e', .ok ()))
    (N : Nat)
    (hcont : ∀ i ≤ L, ∀ (y : Fin m → ℝ) (t'' : OneTuner X n) (j' : Nat), (∀ k, y k ∈ S.seen k) →
      ¬ SetPointsMet S (halved g p i) →
      At S μ (fun k => (I.update (volts (halved g p i)) (some (S.scaled k (halved g p i))) (some (y k)) (E' k)).1)
        (halved g p i) t'' → Good relevant (halved g p i) t'' →
      CompletesFlaky S outs I lstsq N ⟨t'', (volts (halved g p i), j'), 0, true, none⟩) :
    CompletesFlaky S outs I lstsq (3 * (L + 1) + N) ⟨t, (volts q, j), 0, true, none⟩ := by
  obtain ⟨i, hi, hw⟩ := hF.often j g p
  refine flaky_cycle hS hF (j := j) hupd N hcont L 0 t t' q ?_ hbase (hgood.next hnext) ⟨i, by omega, by omega, hi, hw⟩
  rw [halved_zero]
  exact hnext

/-- A measurement on the way to the requested point is as good as the requested one. -/
theorem halved_independent {c x q : Vec n} {k : Nat} {d : Fin k → Vec n} (hq : q - c ∈ Submodule.span ℝ (Set.range d))
    (hli : LinearIndependent ℝ (Fin.snoc d x : Fin (k + 1) → Vec n)) (i : Nat) :
    LinearIndependent ℝ (Fin.snoc d (halved q (c + x) i - c) : Fin (k + 1) → Vec n) := by
  rw [linearIndependent_finSnoc] at hli ⊢
  refine ⟨hli.1, fun hmem => hli.2 ?_⟩
  have h2 : (1 / 2 : ℝ) ^ i ≠ 0 := by positivity
  have e : x = ((1 / 2 : ℝ) ^ i)⁻¹ • ((halved q (c + x) i - c) - (1 - (1 / 2 : ℝ) ^ i) • (q - c)) := by
    funext a
    simp only [halved, Pi.smul_apply, Pi.sub_apply, Pi.add_apply, smul_eq_mul]
    field_simp
    ring
  rw [e]
  exact Submodule.smul_mem _ _ (Submodule.sub_mem _ hmem (Submodule.smul_mem _ _ hq))

theorem halved_close {c x q : Vec n} {B : ℝ} (hq : len (q - c) ≤ B) (hx : len x ≤ B) (i : Nat) :
    len (halved q (c + x) i - c) ≤ B := by
  have h0 : (0 : ℝ) ≤ (1 / 2) ^ i := by positivity
  have h1 : (1 / 2 : ℝ) ^ i ≤ 1 := pow_le_one₀ (by norm_num) (by norm_num)
  have e : halved q (c + x) i - c = (1 - (1 / 2 : ℝ) ^ i) • (q - c) + (1 / 2 : ℝ) ^ i • x := by
    funext a
    simp only [halved, Pi.smul_apply, Pi.sub_apply, Pi.add_apply, smul_eq_mul]
    ring
  rw [e]
  refine (len_add _ _).trans ?_
  rw [len_smul, len_smul, abs_of_nonneg h0, abs_of_nonneg (by linarith)]
  nlinarith

/-- Collecting measurements: `r + 1` measurements are missing. -/
theorem flaky_collect {S : Setup n m} (hS : S.Sound) {relevant : List String}
    {outs : Nat → Volt (Fin n) → List Outcome} {L : Nat} (hF : Flaky S relevant outs L) {μ : Val × Int} {B : ℝ}
    {orth : Orth n} (ho : OrthSpec orth) {lstsq : Newton.Lstsq (Fin n)} (c : Vec n) (hμ : μ.1 = none) (K : Nat)
    (hK : ∀ (E : Fin m → FD n) (q : Vec n) (t : OneTuner (FD n) n) (d : Fin n → Vec n) (G : Fin m → Vec n) (j : Nat),
      At S μ E q t → Good relevant q t → len (q - c) ≤ B → LinearIndependent ℝ d → Secants S c d G E →
      CompletesFlaky S outs (fdI orth) lstsq K ⟨t, (volts q, j), 0, true, none⟩) :
    ∀ (r k : Nat) (_ : k + r + 1 = n) (d : Fin k → Vec n) (_ : LinearIndependent ℝ d)
      (E : Fin m → FD n) (q : Vec n) (t : OneTuner (FD n) n) (j : Nat),
      At S μ E q t → Good relevant q t → len (q - c) ≤ B → q - c ∈ Submodule.span ℝ (Set.range d) →
      (∀ l, Col B none (S.scaled l) c d (E l)) →
      CompletesFlaky S outs (fdI orth) lstsq (3 * (L + 1) * (r + 1) + K) ⟨t, (volts q, j), 0, true, none⟩ := by
  intro r
  induction r with
  | zero =>
    intro k hk d hd E q t j h hgood hq hspan hcol
    obtain ⟨x, E', hli, -, hlen, hcol', hnext⟩ :=
      request_phase hS ho (lstsq := lstsq) h hcol (by omega) hd (by intro h hh; cases hh) (by rw [hμ]; simp) hq
    obtain ⟨t', hnext, hbase⟩ := hnext
    have hlast : ∀ i l (y : ℝ), ∃ e' g, (fdI orth).update (volts (halved q (c + x) i))
        (some (S.scaled l (halved q (c + x) i))) (some y) (E' l) = (e', .ok ()) ∧ Done g e' ∧
        ∀ a, ∑ b, g b * (Fin.snoc d (halved q (c + x) i - c) : Fin (k + 1) → Vec n) a b =
          S.scaled l (c + (Fin.snoc d (halved q (c + x) i - c) : Fin (k + 1) → Vec n) a) - S.scaled l c := by
      intro i l y
      have := (hcol' l).last (by omega) (halved q (c + x) i - c) y (halved_independent hspan hli i)
      rw [add_sub_cancel] at this
      exact this
    rw [Nat.zero_add, Nat.mul_one]
    refine flaky_or hS hF hnext hbase hgood ?_ K ?_
    · intro i l y _
      obtain ⟨e', -, he', -⟩ := hlast i l y
      exact ⟨e', he'⟩
    · intro i _ y t'' j' _ _ hAt hgood'
      choose e' G he' hdone hG using fun l => hlast i l (y l)
      have hli' := halved_independent hspan hli i
      subst hk
      refine hK _ _ _ _ G _ hAt hgood' (halved_close hq hlen i) hli' fun l => ⟨?_, hG l⟩
      rw [he' l]
      exact hdone l
  | succ r ih =>
    intro k hk d hd E q t j h hgood hq hspan hcol
    obtain ⟨x, E', hli, -, hlen, hcol', hnext⟩ :=
      request_phase hS ho (lstsq := lstsq) h hcol (by omega) hd (by intro h hh; cases hh) (by rw [hμ]; simp) hq
    obtain ⟨t', hnext, hbase⟩ := hnext
    have hstep : ∀ i l (y : ℝ), ∃ e', (fdI orth).update (volts (halved q (c + x) i))
        (some (S.scaled l (halved q (c + x) i))) (some y) (E' l) = (e', .ok ()) ∧
        Col B none (S.scaled l) c (Fin.snoc d (halved q (c + x) i - c) : Fin (k + 1) → Vec n) e' := by
      intro i l y
      have := (hcol' l).next (by omega) (halved q (c + x) i - c) y
      rw [add_sub_cancel] at this
      exact this
    have := flaky_or hS hF (q := q) (j := j) hnext hbase hgood (fun i l y _ => by
      obtain ⟨e', he', -⟩ := hstep i l y
      exact ⟨e', he'⟩) (3 * (L + 1) * (r + 1) + K) (fun i _ y t'' j' _ _ hAt hgood' => by
      refine ih (k + 1) (by omega) _ (halved_independent hspan hli i) _ _ _ _ hAt hgood' (halved_close hq hlen i)
        (Submodule.subset_span ⟨Fin.last k, by simp⟩) fun l => ?_
      obtain ⟨e', he', hc⟩ := hstep i l (y l)
      rw [he']
      exact hc)
    rw [show 3 * (L + 1) * (r + 1 + 1) + K = 3 * (L + 1) + (3 * (L + 1) * (r + 1) + K) by ring]
    exact this

/-- What is missing after a part of the Newton step. -/
theorem miss_halved {S : Setup n m} (hS : S.Valid) {q x : Vec n} (hx : ∀ k, S.scaled k (q + x) = S.desired k) (i : Nat) :
    S.miss (halved q (q + x) i) = (1 - (1 / 2 : ℝ) ^ i) • S.miss q := by
  funext k
  have h1 := (Setup.scaled_affine hS.affine k).sub (q + x) q
  have h2 := (Setup.scaled_affine hS.affine k).sub (halved q (q + x) i) q
  have e : halved q (q + x) i - q = (1 / 2 : ℝ) ^ i • x := by
    funext a
    simp [halved]
  rw [e] at h2
  simp only [add_sub_cancel_left] at h1
  simp only [Pi.smul_apply, smul_eq_mul] at h2
  have h3 : ∑ a, S.grad k a / S.scale k * ((1 / 2 : ℝ) ^ i * x a) =
      (1 / 2 : ℝ) ^ i * ∑ a, S.grad k a / S.scale k * x a := by
    rw [Finset.mul_sum]
    exact Finset.sum_congr rfl fun a _ => by ring
  rw [h3, ← h1, hx k] at h2
  simp only [Setup.miss, Pi.smul_apply, smul_eq_mul, ← Setup.scaled_eq]
  linear_combination -h2

/-- Newton steps until the set points are met. -/
theorem flaky_newton {S : Setup n m} (hS : S.Valid) {relevant : List String}
    {outs : Nat → Volt (Fin n) → List Outcome} {L : Nat} (hF : Flaky S relevant outs L) {μ : Val × Int}
    (hμ : μ.1 = none) {I : Newton.EstI X (Fin n)} {lstsq : Newton.Lstsq (Fin n)} (hl : Newton.LstsqSpec lstsq)
    {A : Fin m → X → Prop} (hA : ∀ k, Keeps S I k (A k)) (N : Nat) :
    ∀ (E : Fin m → X) (q : Vec n) (t : OneTuner X n) (b : ℝ) (j : Nat), At S μ E q t → Good relevant q t →
      (∀ k, A k (E k)) → len (S.miss q) ≤ b →
      (∀ k tol, (S.row k).tolerance = some tol → (1 - (1 / 2 : ℝ) ^ L) ^ (N + 1) * b < tol) →
      CompletesFlaky S outs I lstsq (3 * (L + 1) * (N + 1)) ⟨t, (volts q, j), 0, true, none⟩ := by
  have hred : ∀ (q x : Vec n) (b : ℝ) (i : Nat), i ≤ L → (∀ k, S.scaled k (q + x) = S.desired k) →
      len (S.miss q) ≤ b → len (S.miss (halved q (q + x) i)) ≤ (1 - (1 / 2 : ℝ) ^ L) * b := by
    intro q x b i hi hx hb
    have h1 : (1 / 2 : ℝ) ^ L ≤ (1 / 2) ^ i := pow_le_pow_of_le_one (by norm_num) (by norm_num) hi
    have h2 : (1 / 2 : ℝ) ^ i ≤ 1 := pow_le_one₀ (by norm_num) (by norm_num)
    rw [miss_halved hS hx, len_smul, abs_of_nonneg (by linarith)]
    exact mul_le_mul (by linarith) hb (len_nonneg _) (by linarith)
  induction N with
  | zero =>
    intro E q t b j h hgood hdone hb htol
    obtain ⟨x, hsug, -, hx, -⟩ := newton_suggestion hS hl h hA hdone
    obtain ⟨t', hnext, hbase⟩ := suggestion (E' := E) (q' := q + x) h (by rw [hμ]; simp) hsug
    rw [Nat.zero_add, Nat.mul_one]
    refine flaky_or hS.toSound hF hnext hbase hgood (fun i k y hy => ?_) 0 ?_
    · obtain ⟨e', he', -⟩ := (hA k).update _ (hdone k) (halved q (q + x) i) y hy
      exact ⟨e', he'⟩
    · intro i hi y t'' j' _ hnot _ _
      exfalso
      apply hnot
      refine met_of_small fun k tol hk => ?_
      have h1 := htol k tol hk
      rw [zero_add, pow_one] at h1
      exact lt_of_le_of_lt (hred q x b i hi hx hb) h1
  | succ N ih =>
    intro E q t b j h hgood hdone hb htol
    obtain ⟨x, hsug, -, hx, -⟩ := newton_suggestion hS hl h hA hdone
    obtain ⟨t', hnext, hbase⟩ := suggestion (E' := E) (q' := q + x) h (by rw [hμ]; simp) hsug
    have := flaky_or hS.toSound hF (q := q) (j := j) hnext hbase hgood (fun i k y hy => by
      obtain ⟨e', he', -⟩ := (hA k).update _ (hdone k) (halved q (q + x) i) y hy
      exact ⟨e', he'⟩) (3 * (L + 1) * (N + 1)) (by
      intro i hi y t'' j' hy _ hAt hgood'
      refine ih _ _ t'' ((1 - (1 / 2 : ℝ) ^ L) * b) j' hAt hgood' (fun k => ?_) (hred q x b i hi hx hb)
        fun k tol hk => ?_
      · obtain ⟨e', he', hAe⟩ := (hA k).update _ (hdone k) (halved q (q + x) i) (y k) (hy k)
        rw [he']
        exact hAe
      · have h1 := htol k tol hk
        rw [pow_succ, mul_assoc] at h1
        exact h1)
    rw [show 3 * (L + 1) * (N + 1 + 1) = 3 * (L + 1) + 3 * (L + 1) * (N + 1) by ring]
    exact this

end Qtune.EndToEnd
