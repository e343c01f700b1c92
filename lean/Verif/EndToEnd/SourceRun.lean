import Verif.EndToEnd.SourceSpec
import Verif.EndToEnd.LeadRun

/-! # Phases of a tuning with a voltage source of finite resolution that is read back -/

namespace Qtune.EndToEnd

open Qtune.Tuner Qtune.Gradient Qtune.Autotuner

variable {n m : Nat} {X : Type}

theorem Resolution.nonneg {src : Volt (Fin n) → Volt (Fin n)} {r : ℝ} (h : Resolution src r) : 0 ≤ r := by
  obtain ⟨p, -, hp⟩ := h 0
  exact (len_nonneg _).trans hp

/-- Vectors with a product. -/
theorem abs_product_le (a b : Vec n) : |∑ i, a i * b i| ≤ len a * len b := by
  rw [← abs_of_nonneg (mul_nonneg (len_nonneg a) (len_nonneg b))]
  refine sq_le_sq.1 ?_
  rw [mul_pow, len_sq, len_sq]
  exact Finset.sum_mul_sq_le_sq_mul_sq _ _ _

theorem fd_update_eps (p : Vec n) (x y : Val) (e : FD n) : (e.update p x y).1.eps = e.eps := by
  unfold FD.update
  split
  · rfl
  · split
    · rfl
    · dsimp only
      split
      · split <;> rfl
      · split
        · split <;> rfl
        · rfl

/-- An independent displacement that stays independent when it is applied with a deviation of up to `r`. -/
theorem independent_applied {k : Nat} {d : Fin k → Vec n} (hd : LinearIndependent ℝ d) {u eps e : Vec n} {r : ℝ}
    (heps : ∀ i, r < eps i) (hu : inner u u = 1) (hort : ∀ j, inner u (d j) = 0) (he : len e ≤ r) :
    LinearIndependent ℝ (Fin.snoc d (scaled u eps + e) : Fin (k + 1) → Vec n) := by
  rw [linearIndependent_finSnoc]
  refine ⟨hd, fun hmem => ?_⟩
  have h0 : inner u (scaled u eps + e) = 0 := inner_span (by rintro v ⟨j, rfl⟩; exact hort j) hmem
  have hu' : ∑ i, u i * u i = 1 := hu
  have hlen : len u = 1 := by
    unfold len
    simp only [pow_two, hu', Real.sqrt_one]
  have h1 : ∑ i, u i * (scaled u eps + e) i = r + ∑ i, (eps i - r) * (u i * u i) + ∑ i, u i * e i := by
    have : r = ∑ i, r * (u i * u i) := by rw [← Finset.mul_sum, hu', mul_one]
    conv_rhs => rw [this]
    rw [← Finset.sum_add_distrib, ← Finset.sum_add_distrib]
    refine Finset.sum_congr rfl fun i _ => ?_
    simp only [Pi.add_apply, scaled]
    rw [← this]
    ring
  have h2 := (abs_le.1 (abs_product_le u e)).1
  rw [hlen, one_mul] at h2
  have h3 : 0 < ∑ i, (eps i - r) * (u i * u i) := by
    obtain ⟨i, hi⟩ : ∃ i, u i ≠ 0 := by
      by_contra hno
      push Not at hno
      simp [hno] at hu'
    refine Finset.sum_pos' (fun i _ => mul_nonneg (sub_nonneg.2 (heps i).le) (mul_self_nonneg _)) ⟨i, Finset.mem_univ i, ?_⟩
    exact mul_pos (sub_pos.2 (heps i)) (mul_self_pos.2 hi)
  have h4 : ∑ i, u i * (scaled u eps + e) i = 0 := h0
  linarith

/-- The request of an estimator that is not done; the displacement may be applied with a deviation. -/
theorem Col.request_applied {orth : Orth n} (ho : OrthSpec orth) {gates : List (Fin n)}
    (hnd : gates.Nodup) (hall : ∀ i, i ∈ gates) {B r : ℝ} {f : Vec n → ℝ} {c : Vec n} {k : Nat}
    {d : Fin k → Vec n} {e : FD n} (h : Col B none f c d e) (hr : ∀ i, r < e.eps i) (hk : k < n)
    (hli : LinearIndependent ℝ d) :
    ∃ x e', (∀ z, len z ≤ r → LinearIndependent ℝ (Fin.snoc d (x + z) : Fin (k + 1) → Vec n)) ∧
      Col B none f c d e' ∧ e'.eps = e.eps ∧
      e.require orth gates = (e', .ok (some fun i => some ((c + x) i))) := by
  obtain ⟨s₀, s, hst⟩ := h.stored
  have hone : OneSided gates f c e.eps k e :=
    ⟨h.pos, rfl, h.sym, h.est, d, s₀, s, hli, fun j i hi => absurd (hall i) hi, hst⟩
  have hlen := length_all hnd hall
  obtain ⟨u, hu, -, hort, hreq⟩ := hone.require ho hnd (by omega)
    (fun j i hi => absurd (hall i) hi) hst
  refine ⟨scaled u e.eps,
    { e with requested := e.requested ++ [Gradient.request gates c e.eps (.offset u)] },
    fun z hz => independent_applied hli hr hu hort hz,
    ⟨h.pos, h.sym, h.heps, h.small, h.same, h.est, s₀, s, hst⟩, rfl, ?_⟩
  rw [hreq]
  congr 3
  funext i
  simp [Gradient.request, hall i, scaled]

/-- While measurements are missing the first estimator requests the next one. -/
theorem request_phase_applied {S : Setup n m} (hS : S.Sound) {μ : Val × Int} (hμ : μ.1 = none) {B r : ℝ}
    {orth : Orth n} (ho : OrthSpec orth)
    {lstsq : Newton.Lstsq (Fin n)} {E : Fin m → FD n} {q c : Vec n} {t : OneTuner (FD n) n} (h : At S μ E q t)
    {k : Nat} {d : Fin k → Vec n} {f : Fin m → Vec n → ℝ} (hcol : ∀ j, Col B none (f j) c d (E j))
    (hr : ∀ j i, r < (E j).eps i) (hk : k < n) (hli : LinearIndependent ℝ d) :
    ∃ x E', (∀ z, len z ≤ r → LinearIndependent ℝ (Fin.snoc d (x + z) : Fin (k + 1) → Vec n)) ∧
      (∀ j, Col B none (f j) c d (E' j)) ∧ (∀ j i, r < (E' j).eps i) ∧
      ∃ t', nextVoltages (Newton.solver (fdI orth) lstsq) [] t = (t', .ok (volts (c + x))) ∧
        Base S μ E' t' := by
  cases m with
  | zero => exact absurd rfl hS.nonempty
  | succ m =>
    obtain ⟨x, e', hx, hcol', heps', hreq⟩ :=
      (hcol 0).request_applied ho hS.gates_nodup hS.gates_all (hr 0) hk hli
    refine ⟨x, Fin.cons e' fun j => E j.succ, hx, ?_, ?_, ?_⟩
    · intro j
      refine Fin.cases ?_ (fun j => ?_) j
      · simpa using hcol'
      · simpa using hcol j.succ
    · intro j
      refine Fin.cases ?_ (fun j => ?_) j
      · simp only [Fin.cons_zero, heps']
        exact hr 0
      · simpa using hr j.succ
    · apply suggestion h
      · intro M hM
        rw [hμ] at hM
        cases hM
      have htj : Newton.tunedJacobian (fdI orth) [] t.solver = .ok none :=
        (Newton.tuned_jacobian_rows (fdI orth) [] t.solver).1 (by simp)
      have hfd : (fdI orth).require t.solver.gates none (E 0) =
          (e', .ok (some fun i => some (some ((c + x) i)))) := by
        rw [h.gates]
        simp [fdI, hreq, Except.map]
      have hzip : t.solver.target.zip t.solver.ests =
          [] ++ (S.row 0, E 0) :: (List.ofFn fun j : Fin m => S.row j.succ).zip
            (List.ofFn fun j : Fin m => E j.succ) := by
        rw [h.target, h.ests]
        simp [Setup.target, List.ofFn_succ]
      have := Newton.requests_have_priority (fdI orth) lstsq [] t.solver none htj [] _ _ _ hzip
        (by simp) (by rw [hS.desired 0]; simp) (fun i => some (some ((c + x) i)))
        (by rw [hfd]) ⟨⟨0, by omega⟩, by simp⟩
      rw [this, hfd]
      congr 2
      simp only [List.map_nil, List.nil_append, List.ofFn_succ, Fin.cons_zero, Fin.cons_succ]
      congr 1
      exact List.map_snd_zip (by simp)

/-- Suggestion, setting the voltages and evaluation at the applied voltages, which are read back. -/
theorem sourced_cycle {S : Setup n m} {I : Newton.EstI X (Fin n)} {lstsq : Newton.Lstsq (Fin n)}
    {src : Volt (Fin n) → Volt (Fin n)} {t t' t'' : OneTuner X n} {v : Volt (Fin n)} {q' p : Vec n} {b : Bool}
    (hsrc : src (volts q') = volts p)
    (hnext : nextVoltages (Newton.solver I lstsq) [] t = (t', .ok (volts q')))
    (hev : isTuned (Newton.solver I lstsq) (S.outs (volts p)) (volts p) t' = (t'', .ok b)) :
    iterates (sourced I lstsq S.outs src true) 3 ⟨t, v, 0, true, none⟩ =
      .ok ⟨t'', volts q', if b then 1 else 0, !b, none⟩ := by
  let H := sourced I lstsq S.outs src true
  have h1 : (iterate H (.ok ()) ⟨t, v, 0, true, none⟩).1 =
      ⟨t', v, 0, false, some (volts q')⟩ ∧
      (iterate H (.ok ()) ⟨t, v, 0, true, none⟩).2.2 = .ok () := by
    simp [iterate, H, sourced, hierarchy, isComplete, hnext, finish]
  have h2 : (iterate H (.ok ()) ⟨t', v, 0, false, some (volts q')⟩).1 =
      ⟨t', volts q', 0, false, none⟩ ∧
      (iterate H (.ok ()) ⟨t', v, 0, false, some (volts q')⟩).2.2 = .ok () := by
    simp [iterate, H, sourced, hierarchy, isComplete, finish, volts]
  have h3 : (iterate H (.ok ()) ⟨t', volts q', 0, false, none⟩).1 =
      ⟨t'', volts q', if b then 1 else 0, !b, none⟩ ∧
      (iterate H (.ok ()) ⟨t', volts q', 0, false, none⟩).2.2 = .ok () := by
    cases b <;> simp [iterate, H, sourced, hierarchy, isComplete, finish, hsrc, hev]
  have step : ∀ (N : Nat) (s s' : Autotuner.State (OneTuner X n) (Volt (Fin n)) (Volt (Fin n))),
      (iterate H (.ok ()) s).1 = s' ∧ (iterate H (.ok ()) s).2.2 = .ok () →
      iterates H (N + 1) s = iterates H N s' := by
    rintro N s s' ⟨ha, hb⟩
    conv_lhs => unfold iterates
    rcases hi : iterate H (.ok ()) s with ⟨s₁, ev, r⟩
    rw [hi] at ha hb
    simp only at ha hb
    subst ha hb
    rfl
  rw [step 2 _ _ h1, step 1 _ _ h2, step 0 _ _ h3]
  rfl

/-- One cycle either completes the tuning or leads to the next state. -/
theorem sourced_cycle_or {S : Setup n m} (hS : S.Sound) {μ : Val × Int} {I : Newton.EstI X (Fin n)}
    {lstsq : Newton.Lstsq (Fin n)} {src : Volt (Fin n) → Volt (Fin n)}
    {t t' : OneTuner X n} {E' : Fin m → X} {v : Volt (Fin n)} {q' p : Vec n} (hsrc : src (volts q') = volts p)
    (hnext : nextVoltages (Newton.solver I lstsq) [] t = (t', .ok (volts q')))
    (hbase : Base S μ E' t')
    (hupd : ∀ k, ∀ y ∈ S.seen k,
      ∃ e', I.update (volts p) (some (S.scaled k p)) (some y) (E' k) = (e', .ok ()))
    (N : Nat)
    (hcont : ∀ (y : Fin m → ℝ) (t'' : OneTuner X n), (∀ k, y k ∈ S.seen k) → ¬ SetPointsMet S p →
      At S μ (fun k => (I.update (volts p) (some (S.scaled k p)) (some (y k)) (E' k)).1) p t'' →
      CompletesSourced S I lstsq src true N ⟨t'', volts q', 0, true, none⟩) :
    CompletesSourced S I lstsq src true (3 + N) ⟨t, v, 0, true, none⟩ := by
  obtain ⟨y, t'', b, hev, hy, hAt, hb⟩ := evaluation hS (I := I) (lstsq := lstsq) hbase p hupd
  have hrun := sourced_cycle (v := v) hsrc hnext hev
  cases b with
  | true => exact ⟨3, by omega, _, hrun, rfl, p, hsrc, hb.1 rfl⟩
  | false =>
    obtain ⟨M, hM, s', hs', hc⟩ := hcont y t'' hy (fun hm => by
      have := hb.2 hm
      cases this) hAt
    refine ⟨3 + M, by omega, s', ?_, hc⟩
    rw [iterates_add _ 3 M _ _ hrun]
    exact hs'

/-- Collecting measurements: `r + 1` measurements are missing.  `K` calls are needed when all gradients
are known. -/
theorem sourced_collect {S : Setup n m} (hS : S.Sound) {μ : Val × Int} (hμ : μ.1 = none) {B ρ : ℝ} {orth : Orth n}
    (ho : OrthSpec orth) {lstsq : Newton.Lstsq (Fin n)} {src : Volt (Fin n) → Volt (Fin n)} (hsrc : Resolution src ρ)
    (c : Vec n) (K : Nat)
    (hK : ∀ (E : Fin m → FD n) (q : Vec n) (v : Volt (Fin n)) (t : OneTuner (FD n) n) (d : Fin n → Vec n)
      (G : Fin m → Vec n), At S μ E q t → LinearIndependent ℝ d → Secants S c d G E →
      CompletesSourced S (fdI orth) lstsq src true K ⟨t, v, 0, true, none⟩) :
    ∀ (r k : Nat) (_ : k + r + 1 = n) (d : Fin k → Vec n) (_ : LinearIndependent ℝ d)
      (E : Fin m → FD n) (q : Vec n) (v : Volt (Fin n)) (t : OneTuner (FD n) n), At S μ E q t →
      (∀ j, Col B none (S.scaled j) c d (E j)) → (∀ j i, ρ < (E j).eps i) →
      CompletesSourced S (fdI orth) lstsq src true (3 * (r + 1) + K) ⟨t, v, 0, true, none⟩ := by
  intro r
  induction r with
  | zero =>
    intro k hk d hd E q v t h hcol heps
    obtain ⟨x, E', hli, hcol', -, t', hnext, hbase⟩ :=
      request_phase_applied hS hμ ho (lstsq := lstsq) h hcol heps (by omega) hd
    obtain ⟨p, hp, hlen⟩ := hsrc (c + x)
    obtain ⟨z, rfl⟩ : ∃ z, p = c + (x + z) := ⟨p - (c + x), by abel⟩
    replace hli := hli z (by rwa [show c + (x + z) - (c + x) = z by abel] at hlen)
    refine sourced_cycle_or hS hp hnext hbase ?_ K ?_
    · intro j y _
      obtain ⟨e', -, he', -⟩ := (hcol' j).last (by omega) (x + z) y hli
      exact ⟨e', he'⟩
    · intro y t'' _ _ hAt
      have hlast : ∀ j, ∃ g, Done g ((fdI orth).update (volts (c + (x + z))) (some (S.scaled j (c + (x + z))))
          (some (y j)) (E' j)).1 ∧ ∀ a, ∑ i, g i * (Fin.snoc d (x + z) : Fin (k + 1) → Vec n) a i =
            S.scaled j (c + (Fin.snoc d (x + z) : Fin (k + 1) → Vec n) a) - S.scaled j c := by
        intro j
        obtain ⟨e', g, he', hdone, hg⟩ := (hcol' j).last (by omega) (x + z) (y j) hli
        have he : (fdI orth).update (volts (c + (x + z))) (some (S.scaled j (c + (x + z)))) (some (y j)) (E' j) = _ := he'
        rw [he]
        exact ⟨g, hdone, hg⟩
      choose G hG using hlast
      subst hk
      exact hK _ _ _ _ _ G hAt hli hG
  | succ r ih =>
    intro k hk d hd E q v t h hcol heps
    obtain ⟨x, E', hli, hcol', heps', t', hnext, hbase⟩ :=
      request_phase_applied hS hμ ho (lstsq := lstsq) h hcol heps (by omega) hd
    obtain ⟨p, hp, hlen⟩ := hsrc (c + x)
    obtain ⟨z, rfl⟩ : ∃ z, p = c + (x + z) := ⟨p - (c + x), by abel⟩
    replace hli := hli z (by rwa [show c + (x + z) - (c + x) = z by abel] at hlen)
    have := sourced_cycle_or hS (v := v) hp hnext hbase (fun j y _ => by
      obtain ⟨e', he', -⟩ := (hcol' j).next (by omega) (x + z) y
      exact ⟨e', he'⟩) (3 * (r + 1) + K) (fun y t'' _ _ hAt => by
      refine ih (k + 1) (by omega) _ hli _ _ _ _ hAt (fun j => ?_) (fun j i => ?_)
      · obtain ⟨e', he', hc⟩ := (hcol' j).next (by omega) (x + z) (y j)
        have he : (fdI orth).update (volts (c + (x + z))) (some (S.scaled j (c + (x + z)))) (some (y j)) (E' j) = _ := he'
        rw [he]
        exact hc
      · have := fd_update_eps (fun i => (volts (c + (x + z)) i).getD 0) (some (S.scaled j (c + (x + z)))) (some (y j)) (E' j)
        change ρ < (FD.update _ _ _ (E' j)).1.eps i
        rw [this]
        exact heps' j i)
    rw [show 3 * (r + 1 + 1) + K = 3 + (3 * (r + 1) + K) by ring]
    exact this

/-- A complete tuning meets the set points at the applied voltages, whatever the estimators do. -/
theorem sourced_complete_met {S : Setup n m} (hS : S.Sound) (I : Newton.EstI X (Fin n))
    (lstsq : Newton.Lstsq (Fin n)) {src : Volt (Fin n) → Volt (Fin n)} (hsrc : ∀ q : Vec n, ∃ p : Vec n, src (volts q) = volts p)
    (back : Bool) :
    ∀ (N : Nat) (s s' : Autotuner.State (OneTuner X n) (Volt (Fin n)) (Volt (Fin n))), s.tuners.solver.target = S.target →
      (∃ q, s.expt = volts q ∧ ∃ p, src (volts q) = volts p ∧ (s.index = 0 ∨ SetPointsMet S p)) →
      iterates (sourced I lstsq S.outs src back) N s = .ok s' →
      ∃ q, s'.expt = volts q ∧ ∃ p, src (volts q) = volts p ∧ (s'.index = 0 ∨ SetPointsMet S p)
  | 0, s, s', _, h, hs => by cases hs; exact h
  | N + 1, s, s', ht, ⟨q, hq, p, hp, hi⟩, hs => by
    unfold iterates at hs
    have key : ∀ s₁ ev, iterate (sourced I lstsq S.outs src back) (.ok ()) s = (s₁, ev, .ok ()) →
        s₁.tuners.solver.target = S.target ∧
          ∃ q, s₁.expt = volts q ∧ ∃ p, src (volts q) = volts p ∧ (s₁.index = 0 ∨ SetPointsMet S p) := by
      intro s₁ ev h
      rcases iterate_cases h with ⟨w, x, -, hnan, hx, rfl⟩ | ⟨t, x, b, hx, rfl⟩ | ⟨t, w, hx, rfl⟩
      · replace hnan : decide (∃ i, w i = none) = false := hnan
        rw [decide_eq_false_iff_not, not_exists] at hnan
        cases hx
        have hw : w = volts fun i => (w i).getD 0 := by
          funext i
          change w i = some ((w i).getD 0)
          rcases hwi : w i with _ | a
          · exact absurd hwi (hnan i)
          · rfl
        obtain ⟨p', hp'⟩ := hsrc fun i => (w i).getD 0
        exact ⟨ht, _, hw, p', hp', .inl rfl⟩
      · obtain ⟨v, hv⟩ : ∃ v, v = if back then src s.expt else s.expt := ⟨_, rfl⟩
        obtain ⟨h1, h2⟩ := isTuned_same_target (Newton.solver I lstsq) (fun _ _ => rfl) (update_same_target I)
          (S.outs (src s.expt)) v s.tuners
        have hx' : (((isTuned (Newton.solver I lstsq) (S.outs (src s.expt)) v s.tuners).1, s.expt),
          (isTuned (Newton.solver I lstsq) (S.outs (src s.expt)) v s.tuners).2) = ((t, x), Except.ok b) := by
          rw [hv]; exact hx
        have hx1 : (isTuned (Newton.solver I lstsq) (S.outs (src s.expt)) v s.tuners).1 = t := congrArg (fun p => p.1.1) hx'
        have hx2 : s.expt = x := congrArg (fun p => p.1.2) hx'
        have hx3 : (isTuned (Newton.solver I lstsq) (S.outs (src s.expt)) v s.tuners).2 = .ok b := congrArg (fun p => p.2) hx'
        subst hx2
        rw [hx1] at h1
        refine ⟨h1.trans ht, q, hq, p, hp, ?_⟩
        cases b with
        | false => exact hi
        | true =>
          right
          obtain ⟨a, y, hev, hw⟩ := h2 hx3
          have ht' : (Newton.solver I lstsq).target s.tuners.solver = S.target := ht
          obtain ⟨y', -, hev'⟩ := hS.evaluators p
          rw [ht', hq, hp] at hev
          have : evaluate S.target (S.outs (volts p)) = _ := hev'
          rw [this] at hev
          cases hev
          intro k tol htol
          rw [ht'] at hw
          have h3 := hw (S.row k) (List.mem_ofFn.2 ⟨k, rfl⟩)
          rw [(Setup.rescaled hS p y').1, Setup.val_ofFn hS (fun k => some (S.scaled k p)) k] at h3
          unfold WithinTolerance at h3
          rw [htol, hS.desired k] at h3
          exact h3
      · have h1 := nextVoltages_same_target (Newton.solver I lstsq) (suggest_same_target I lstsq) [] s.tuners
        have hx' : nextVoltages (Newton.solver I lstsq) [] s.tuners = (t, .ok w) := hx
        rw [hx'] at h1
        exact ⟨h1.trans ht, q, hq, p, hp, hi⟩
    revert hs key
    rcases iterate (sourced I lstsq S.outs src back) (.ok ()) s with ⟨s₁, ev, r⟩
    intro hs key
    cases r with
    | error e => cases hs
    | ok u =>
      cases u
      obtain ⟨h1, h2⟩ := key s₁ ev rfl
      exact sourced_complete_met hS I lstsq hsrc back N s₁ s' h1 h2 hs

end Qtune.EndToEnd
