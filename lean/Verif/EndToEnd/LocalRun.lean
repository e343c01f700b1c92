import Verif.EndToEnd.LocalSpec
import Verif.EndToEnd.PropsRobust

/-! # Runs that stay in a region -/

namespace Qtune.EndToEnd

open Qtune.Tuner Qtune.Gradient Qtune.Autotuner

variable {n m : Nat} {X : Type}

theorem iterates_step {W X V P C : Type} {H : Hierarchy W X V P C} {s s' : Autotuner.State W X V} (N : Nat)
    (h : (iterate H (.ok ()) s).1 = s' ∧ (iterate H (.ok ()) s).2.2 = .ok ()) : iterates H (N + 1) s = iterates H N s' := by
  obtain ⟨ha, hb⟩ := h
  conv_lhs => unfold iterates
  rcases hi : iterate H (.ok ()) s with ⟨s₁, ev, r⟩
  rw [hi] at ha hb
  simp only at ha hb
  subst ha hb
  rfl

/-- The three calls of a cycle. -/
theorem cycle_states {S : Setup n m} {I : Newton.EstI X (Fin n)} {lstsq : Newton.Lstsq (Fin n)} {t t' t'' : OneTuner X n}
    {q q' : Vec n} {b : Bool}
    (hnext : nextVoltages (Newton.solver I lstsq) [] t = (t', .ok (volts q')))
    (hev : isTuned (Newton.solver I lstsq) (S.outs (volts q')) (volts q') t' = (t'', .ok b)) (N : Nat) :
    iterates (hierarchy I lstsq S.outs) (N + 1) ⟨t, volts q, 0, true, none⟩ =
        iterates (hierarchy I lstsq S.outs) N ⟨t', volts q, 0, false, some (volts q')⟩ ∧
      iterates (hierarchy I lstsq S.outs) (N + 2) ⟨t, volts q, 0, true, none⟩ =
        iterates (hierarchy I lstsq S.outs) N ⟨t', volts q', 0, false, none⟩ ∧
      iterates (hierarchy I lstsq S.outs) (N + 3) ⟨t, volts q, 0, true, none⟩ =
        iterates (hierarchy I lstsq S.outs) N ⟨t'', volts q', if b then 1 else 0, !b, none⟩ := by
  let H := hierarchy I lstsq S.outs
  have h1 : (iterate H (.ok ()) ⟨t, volts q, 0, true, none⟩).1 =
      ⟨t', volts q, 0, false, some (volts q')⟩ ∧
      (iterate H (.ok ()) ⟨t, volts q, 0, true, none⟩).2.2 = .ok () := by
    simp [iterate, H, hierarchy, isComplete, hnext, finish]
  have h2 : (iterate H (.ok ()) ⟨t', volts q, 0, false, some (volts q')⟩).1 =
      ⟨t', volts q', 0, false, none⟩ ∧
      (iterate H (.ok ()) ⟨t', volts q, 0, false, some (volts q')⟩).2.2 = .ok () := by
    simp [iterate, H, hierarchy, isComplete, finish, volts]
  have h3 : (iterate H (.ok ()) ⟨t', volts q', 0, false, none⟩).1 =
      ⟨t'', volts q', if b then 1 else 0, !b, none⟩ ∧
      (iterate H (.ok ()) ⟨t', volts q', 0, false, none⟩).2.2 = .ok () := by
    cases b <;> simp [iterate, H, hierarchy, isComplete, finish, hev]
  refine ⟨iterates_step N h1, ?_, ?_⟩
  · rw [iterates_step (N + 1) h1]
    exact iterates_step N h2
  · rw [iterates_step (N + 2) h1, iterates_step (N + 1) h2]
    exact iterates_step N h3

/-- One cycle either completes the tuning or leads to the next state; all in the region. -/
theorem cycle_inside {S : Setup n m} (hS : S.Sound) {A : Vec n → Prop} {μ : Val × Int} {I : Newton.EstI X (Fin n)}
    {lstsq : Newton.Lstsq (Fin n)} {t t' : OneTuner X n} {E' : Fin m → X} {q q' : Vec n} (hq : A q) (hq' : A q')
    (hnext : nextVoltages (Newton.solver I lstsq) [] t = (t', .ok (volts q')))
    (hbase : Base S μ E' t')
    (hupd : ∀ k, ∀ y ∈ S.seen k,
      ∃ e', I.update (volts q') (some (S.scaled k q')) (some y) (E' k) = (e', .ok ()))
    (N : Nat)
    (hcont : ∀ (y : Fin m → ℝ) (t'' : OneTuner X n), (∀ k, y k ∈ S.seen k) → ¬ SetPointsMet S q' →
      At S μ (fun k => (I.update (volts q') (some (S.scaled k q')) (some (y k)) (E' k)).1) q' t'' →
      CompletesInside S I lstsq A N ⟨t'', volts q', 0, true, none⟩) :
    CompletesInside S I lstsq A (3 + N) ⟨t, volts q, 0, true, none⟩ := by
  obtain ⟨y, t'', b, hev, hy, hAt, hb⟩ := evaluation hS (I := I) (lstsq := lstsq) hbase q' hupd
  have hstates := cycle_states (S := S) (q := q) hnext hev
  have early : ∀ j < 3, ∃ s', iterates (hierarchy I lstsq S.outs) j ⟨t, volts q, 0, true, none⟩ = .ok s' ∧
      ∃ v, s'.expt = volts v ∧ A v := by
    intro j hj
    rcases j with _ | _ | _ | j
    · exact ⟨_, rfl, q, rfl, hq⟩
    · exact ⟨_, (hstates 0).1, q, rfl, hq⟩
    · exact ⟨_, (hstates 0).2.1, q', rfl, hq'⟩
    · omega
  cases b with
  | true =>
    refine ⟨3, by omega, ⟨_, (hstates 0).2.2, rfl, q', rfl, hb.1 rfl⟩, fun j hj => ?_⟩
    rcases Nat.lt_or_ge j 3 with h | h
    · exact early j h
    · obtain rfl : j = 3 := by omega
      exact ⟨_, (hstates 0).2.2, q', rfl, hq'⟩
  | false =>
    obtain ⟨M, hM, ⟨s', hs', hc⟩, hin⟩ := hcont y t'' hy (fun hm => by
      have := hb.2 hm
      cases this) hAt
    refine ⟨M + 3, by omega, ⟨s', by rw [(hstates M).2.2]; exact hs', hc⟩, fun j hj => ?_⟩
    rcases Nat.lt_or_ge j 3 with h | h
    · exact early j h
    · obtain ⟨j, rfl⟩ : ∃ i, j = i + 3 := ⟨j - 3, by omega⟩
      rw [(hstates j).2.2]
      exact hin j (by omega)

/-- Collecting measurements in the region, as `collect_phase`. -/
theorem collect_inside {S : Setup n m} (hS : S.Sound) {A : Vec n → Prop} {μ : Val × Int} {B : ℝ} {η : Option ℝ}
    {orth : Orth n} (ho : OrthSpec orth) {lstsq : Newton.Lstsq (Fin n)} (c : Vec n) (hA : ∀ v, len (v - c) ≤ B → A v)
    (hμ : ∀ M, μ.1 = some M → 2 * B ≤ M) (K : Nat)
    (hK : ∀ (E : Fin m → FD n) (q : Vec n) (t : OneTuner (FD n) n) (d : Fin n → Vec n) (G : Fin m → Vec n),
      At S μ E q t → len (q - c) ≤ B → LinearIndependent ℝ d → Spread η d → Secants S c d G E →
      CompletesInside S (fdI orth) lstsq A K ⟨t, volts q, 0, true, none⟩) :
    ∀ (r k : Nat) (_ : k + r + 1 = n) (d : Fin k → Vec n) (_ : LinearIndependent ℝ d) (_ : Spread η d)
      (E : Fin m → FD n) (q : Vec n) (t : OneTuner (FD n) n), At S μ E q t → len (q - c) ≤ B →
      (∀ j, Col B η (S.scaled j) c d (E j)) →
      CompletesInside S (fdI orth) lstsq A (3 * (r + 1) + K) ⟨t, volts q, 0, true, none⟩ := by
  intro r
  induction r with
  | zero =>
    intro k hk d hd hsp E q t h hq hcol
    obtain ⟨x, E', hli, hsp', hlen, hcol', hnext⟩ :=
      request_phase hS ho (lstsq := lstsq) h hcol (by omega) hd hsp hμ hq
    obtain ⟨t', hnext, hbase⟩ := hnext
    refine cycle_inside hS (hA q hq) (hA (c + x) (by simpa using hlen)) hnext hbase ?_ K ?_
    · intro j y _
      obtain ⟨e', -, he', -⟩ := (hcol' j).last (by omega) x y hli
      exact ⟨e', he'⟩
    · intro y t'' _ _ hAt
      have hlast : ∀ j, ∃ g, Done g ((fdI orth).update (volts (c + x)) (some (S.scaled j (c + x))) (some (y j))
          (E' j)).1 ∧ ∀ a, ∑ i, g i * (Fin.snoc d x : Fin (k + 1) → Vec n) a i =
            S.scaled j (c + (Fin.snoc d x : Fin (k + 1) → Vec n) a) - S.scaled j c := by
        intro j
        obtain ⟨e', g, he', hdone, hg⟩ := (hcol' j).last (by omega) x (y j) hli
        have he : (fdI orth).update (volts (c + x)) (some (S.scaled j (c + x))) (some (y j)) (E' j) = _ := he'
        rw [he]
        exact ⟨g, hdone, hg⟩
      choose G hG using hlast
      subst hk
      exact hK _ _ _ _ G hAt (by simpa using hlen) hli hsp' hG
  | succ r ih =>
    intro k hk d hd hsp E q t h hq hcol
    obtain ⟨x, E', hli, hsp', hlen, hcol', hnext⟩ :=
      request_phase hS ho (lstsq := lstsq) h hcol (by omega) hd hsp hμ hq
    obtain ⟨t', hnext, hbase⟩ := hnext
    have := cycle_inside hS (q := q) (hA q hq) (hA (c + x) (by simpa using hlen)) hnext hbase (fun j y _ => by
      obtain ⟨e', he', -⟩ := (hcol' j).next (by omega) x y
      exact ⟨e', he'⟩) (3 * (r + 1) + K) (fun y t'' _ _ hAt => by
      refine ih (k + 1) (by omega) _ hli hsp' _ _ _ hAt (by simpa using hlen) fun j => ?_
      obtain ⟨e', he', hc⟩ := (hcol' j).next (by omega) x (y j)
      have he : (fdI orth).update (volts (c + x)) (some (S.scaled j (c + x))) (some (y j)) (E' j) = _ := he'
      rw [he]
      exact hc)
    rw [show 3 * (r + 1 + 1) + K = 3 + (3 * (r + 1) + K) by ring]
    exact this

/-- First evaluation and collection of the gradients in the region, as `first_phase_any`. -/
theorem first_inside {S : Setup n m} (hS : S.Sound) {A : Vec n → Prop} (hn : n ≠ 0) {orth : Orth n} (ho : OrthSpec orth)
    {lstsq : Newton.Lstsq (Fin n)} (c : Vec n) (t : OneTuner (FD n) n) {B : ℝ} {η : Option ℝ}
    (hA : ∀ v, len (v - c) ≤ B → A v)
    {start : Fin m → Option (Vec n)} {eps : Fin m → Vec n} (hstart : ∀ k, start k = none ∨ start k = some c)
    (heps : ∀ k i, 0 < eps k i ∧ eps k i ≤ B) (hsame : ∀ k h, η = some h → ∀ i, eps k i = h)
    (hbase : Base S (t.maxStep, t.maxNumber) (fun k => FD.new (start k) (eps k) false) t)
    (hμ : ∀ M, t.maxStep = some M → 2 * B ≤ M) (K : Nat)
    (hK : ∀ (E : Fin m → FD n) (q : Vec n) (t' : OneTuner (FD n) n) (d : Fin n → Vec n) (G : Fin m → Vec n),
      At S (t.maxStep, t.maxNumber) E q t' → len (q - c) ≤ B → LinearIndependent ℝ d → Spread η d →
      Secants S c d G E →
      CompletesInside S (fdI orth) lstsq A K ⟨t', volts q, 0, true, none⟩) :
    CompletesInside S (fdI orth) lstsq A (3 * n + 1 + K) (fresh t (volts c)) := by
  have hupd : ∀ k, ∀ y ∈ S.seen k, ∃ e', (fdI orth).update (volts c) (some (S.scaled k c)) (some y)
      (FD.new (start k) (eps k) false) = (e', .ok ()) := fun k y _ => by
    obtain ⟨e', he', -⟩ := Col.start (f := S.scaled k) hn c (eps k) (fun i => (heps k i).1)
      (fun i => (heps k i).2) (hsame k) (start k) (hstart k) y
    exact ⟨e', he'⟩
  obtain ⟨y, t', b, hev, -, hAt, hb⟩ := evaluation
    (lstsq := lstsq) (I := fdI orth) hS hbase c hupd
  have hB : 0 ≤ B := by
    obtain ⟨k⟩ : Nonempty (Fin m) := ⟨⟨0, Nat.pos_of_ne_zero hS.nonempty⟩⟩
    have := heps k ⟨0, Nat.pos_of_ne_zero hn⟩
    linarith
  have hAc : A c := hA c (by simpa [len] using hB)
  have h1 : ∀ N, iterates (hierarchy (fdI orth) lstsq S.outs) (N + 1) (fresh t (volts c)) =
      iterates (hierarchy (fdI orth) lstsq S.outs) N ⟨t', volts c, if b then 1 else 0, !b, none⟩ := by
    intro N
    apply iterates_step
    cases b <;> simp [iterate, fresh, hierarchy, isComplete, finish, hev]
  cases b with
  | true =>
    refine ⟨1, by omega, ⟨_, h1 0, rfl, c, rfl, hb.1 rfl⟩, fun j hj => ?_⟩
    rcases j with _ | j
    · exact ⟨_, rfl, c, rfl, hAc⟩
    · obtain rfl : j = 0 := by omega
      exact ⟨_, h1 0, c, rfl, hAc⟩
  | false =>
    obtain ⟨M, hM, ⟨s', hs', hc⟩, hin⟩ := collect_inside hS (B := B) ho (lstsq := lstsq) c hA hμ K hK (n - 1) 0
      (by omega) (fun j : Fin 0 => (j.elim0 : Vec n)) (linearIndependent_empty_type)
      (fun _ _ => ⟨fun j => j.elim0, fun j => j.elim0⟩) _ c t' hAt
      (by simpa [len] using hB) fun j => by
        obtain ⟨e', he', hcol⟩ := Col.start (f := S.scaled j) hn c (eps j) (fun i => (heps j i).1)
          (fun i => (heps j i).2) (hsame j) (start j) (hstart j) (y j)
        have he : (fdI orth).update (volts c) (some (S.scaled j c)) (some (y j))
          (FD.new (start j) (eps j) false) = _ := he'
        rw [he]
        exact hcol
    refine ⟨M + 1, by omega, ⟨s', by rw [h1]; exact hs', hc⟩, fun j hj => ?_⟩
    rcases j with _ | j
    · exact ⟨_, rfl, c, rfl, hAc⟩
    · rw [h1]
      exact hin j (by omega)

/-- Newton steps near `c` until the set points are met. -/
theorem robust_inside {S : Setup n m} (hS : S.Sound) {c : Vec n} {R κ δ ρ σ : ℝ} (hbend : NearlyAffineOn S (Near c R) κ δ)
    (hκ : 0 ≤ κ) (hδ : 0 ≤ δ)
    (hσ : Conditioned S σ) (hρ0 : 0 ≤ ρ) (hρσ : 2 * ρ + κ < σ) {orth : Orth n}
    {lstsq : Newton.Lstsq (Fin n)} (hls : Newton.LstsqSpec lstsq) {μ : Val × Int} (hμ : μ.1 = none)
    {G : Fin m → Vec n} (hfrob : frob (G - S.slope) ≤ ρ) (N : Nat) :
    ∀ (E : Fin m → FD n) (q : Vec n) (t : OneTuner (FD n) n) (b : ℝ), At S μ E q t → (∀ k, Done (G k) (E k)) → 0 ≤ b →
      len (S.miss q) ≤ b + δ / (1 - (ρ + κ) / (σ - ρ)) →
      (∀ k tol, (S.row k).tolerance = some tol →
        ((ρ + κ) / (σ - ρ)) ^ (N + 1) * b + δ / (1 - (ρ + κ) / (σ - ρ)) < tol) →
      len (q - c) + (b + (N + 1) * δ) / (1 - (ρ + κ) / (σ - ρ)) / (σ - ρ) ≤ R →
      CompletesInside S (fdI orth) lstsq (Near c R) (3 * (N + 1)) ⟨t, volts q, 0, true, none⟩ := by
  have hτ : 0 < σ - ρ := by linarith
  obtain ⟨a, ha⟩ : ∃ a, a = (ρ + κ) / (σ - ρ) := ⟨_, rfl⟩
  have ha0 : 0 ≤ a := by rw [ha]; positivity
  have ha1 : a < 1 := by rw [ha, div_lt_one hτ]; linarith
  rw [← ha]
  have h1a : 0 < 1 - a := by linarith
  have hfix : a * (δ / (1 - a)) + δ = δ / (1 - a) := by
    field_simp
    ring
  have hD : 0 ≤ δ / (1 - a) := by positivity
  have hstep : ∀ (N : Nat) (E : Fin m → FD n) (q : Vec n) (t : OneTuner (FD n) n) (b : ℝ), At S μ E q t →
      (∀ k, Done (G k) (E k)) → 0 ≤ b → len (S.miss q) ≤ b + δ / (1 - a) →
      len (q - c) + (b + (N + 1) * δ) / (1 - a) / (σ - ρ) ≤ R →
      Near c R q ∧
      ∃ x, Newton.suggest (fdI orth) lstsq [] t.solver =
        ({ t.solver with ests := List.ofFn E }, .ok fun i => some (some ((q + x) i))) ∧
        Near c R (q + x) ∧ len (S.miss (q + x)) ≤ a * b + δ / (1 - a) ∧
        len (q + x - c) + (a * b + N * δ) / (1 - a) / (σ - ρ) ≤ R := by
    intro N E q t b h hdone hb0 hb hR
    obtain ⟨x, hsug, hx, hlen⟩ := known_suggestion hS hls h (G := G) (I := fdI orth)
      (fun k tj => (hdone k).silent tj) (fun k => by
        obtain ⟨C, hC⟩ := (hdone k).est
        simp [fdI, hC]) hτ (perturbed hσ hfrob)
    have hnear : Near c R q := by
      unfold Near
      have : 0 ≤ (b + (N + 1) * δ) / (1 - a) / (σ - ρ) := by positivity
      linarith
    have hlx : len x ≤ (b + δ / (1 - a)) / (σ - ρ) := by
      rw [le_div_iff₀ hτ]
      linarith
    have hsplit : (b + (N + 1) * δ) / (1 - a) / (σ - ρ) =
        (b + δ / (1 - a)) / (σ - ρ) + (a * b + N * δ) / (1 - a) / (σ - ρ) := by
      field_simp
      ring
    have htri : len (q + x - c) ≤ len (q - c) + len x := by
      have : q + x - c = (q - c) + x := by abel
      rw [this]
      exact len_add _ _
    have hrest : len (q + x - c) + (a * b + N * δ) / (1 - a) / (σ - ρ) ≤ R := by
      rw [hsplit] at hR
      linarith
    have hnear' : Near c R (q + x) := by
      unfold Near
      have : 0 ≤ (a * b + N * δ) / (1 - a) / (σ - ρ) := by positivity
      linarith
    refine ⟨hnear, x, hsug, hnear', ?_, hrest⟩
    have h1 := robust_step (δ := δ) (e' := S.miss (q + x)) hκ hρ0 (by linarith) hfrob hx hlen (by
      refine le_trans (le_of_eq ?_) (hbend q x hnear hnear')
      congr 1
      funext k
      simp only [Setup.miss, Setup.slope]
      ring)
    rw [← ha] at h1
    have h2 := mul_le_mul_of_nonneg_left hb ha0
    rw [← hfix]
    linarith
  induction N with
  | zero =>
    intro E q t b h hdone hb0 hb htol hR
    obtain ⟨hq, x, hsug, hq', hx, -⟩ := hstep 0 E q t b h hdone hb0 hb (by simpa using hR)
    obtain ⟨t', hnext, hbase⟩ := suggestion (E' := E) (q' := q + x) h (by rw [hμ]; simp) hsug
    refine cycle_inside hS hq hq' hnext hbase (fun k y _ => ⟨E k, (hdone k).keeps _ _ _⟩) 0 ?_
    intro y t'' _ hnot _
    exfalso
    apply hnot
    refine met_of_small fun k tol hk => ?_
    have := htol k tol hk
    rw [zero_add, pow_one] at this
    linarith
  | succ N ih =>
    intro E q t b h hdone hb0 hb htol hR
    obtain ⟨hq, x, hsug, hq', hx, hR'⟩ := hstep (N + 1) E q t b h hdone hb0 hb hR
    obtain ⟨t', hnext, hbase⟩ := suggestion (E' := E) (q' := q + x) h (by rw [hμ]; simp) hsug
    have := cycle_inside hS (q := q) hq hq' hnext hbase (fun k y _ => ⟨E k, (hdone k).keeps _ _ _⟩) (3 * (N + 1)) (by
      intro y t'' _ _ hAt
      refine ih _ _ t'' (a * b) hAt (fun k => ?_) (by positivity) hx (fun k tol hk => ?_) (by push_cast at hR'; exact hR')
      · have : (fdI orth).update (volts (q + x)) (some (S.scaled k (q + x))) (some (y k)) (E k) = (E k, .ok ()) :=
          (hdone k).keeps _ _ _
        rw [this]
        exact hdone k
      · have := htol k tol hk
        rw [pow_succ, mul_assoc] at this
        exact this)
    rw [show 3 * (N + 1 + 1) = 3 + 3 * (N + 1) by ring]
    exact this

/-- The device as it would be if its evaluators worked everywhere. -/
noncomputable def everywhere (S : Setup n m) (A : Vec n → Prop) (y : ℝ) : Setup n m :=
  open Classical in
  { S with outs := fun v => if ∃ q, v = volts q ∧ A q then S.outs v else
      [.ok (List.ofFn fun k => ((S.row k).name, some (S.response k fun i => (v i).getD 0)),
        List.ofFn fun k => ((S.row k).name, some y))] }

theorem everywhere_outs (S : Setup n m) {A : Vec n → Prop} (y : ℝ) {q : Vec n} (h : A q) :
    (everywhere S A y).outs (volts q) = S.outs (volts q) := by
  unfold everywhere
  simp only
  rw [if_pos ⟨q, rfl, h⟩]

theorem everywhere_sound {S : Setup n m} {A : Vec n → Prop} (hS : S.SoundOn A) {y : ℝ} (hy : y ∈ S.variances) :
    (everywhere S A y).Sound where
  gates_nodup := hS.gates_nodup
  gates_all := hS.gates_all
  names := hS.names
  desired := hS.desired
  scale := hS.scale
  tolerance := hS.tolerance
  nonempty := hS.nonempty
  evaluators := fun v => by
    by_cases hv : A v
    · have := everywhere_outs S y hv
      unfold volts at this
      rw [this]
      exact hS.evaluators v hv
    · refine ⟨fun _ => y, fun _ => hy, ?_⟩
      have hout : (everywhere S A y).outs (fun i => some (v i)) =
          [.ok (List.ofFn fun k => ((S.row k).name, some (S.response k v)),
            List.ofFn fun k => ((S.row k).name, some y))] := by
        unfold everywhere
        simp only
        rw [if_neg]
        · rfl
        · rintro ⟨q, hq, hA⟩
          have : v = q := by
            funext i
            have := congrFun hq i
            simpa [volts] using this
          exact hv (this ▸ hA)
      rw [hout]
      have hnames : (everywhere S A y).target.names = List.ofFn fun k => (S.row k).name := S.names_eq
      have hnd := hS.names
      have hval : ∀ (x : Fin m → Val), Series.select (List.ofFn fun k => ((S.row k).name, x k)) (everywhere S A y).target.names =
          .ok (List.ofFn fun k => ((S.row k).name, x k)) := by
        intro x
        have hl : ∀ k, (List.ofFn fun k => ((S.row k).name, x k)).lookup (S.row k).name = some (x k) := by
          have hinj : Function.Injective fun k => (S.row k).name := by
            have h := hS.names
            rw [S.names_eq, List.nodup_ofFn] at h
            exact h
          intro k
          rw [List.lookup_eq_some_iff]
          obtain ⟨l₁, l₂, hl⟩ := List.append_of_mem (List.mem_ofFn.2 ⟨k, rfl⟩ :
            ((S.row k).name, x k) ∈ List.ofFn fun k => ((S.row k).name, x k))
          refine ⟨l₁, l₂, hl, ?_⟩
          intro p hp
          have hnd' : ((List.ofFn fun k => ((S.row k).name, x k)).map Prod.fst).Nodup := by
            rw [List.map_ofFn, List.nodup_ofFn]
            exact hinj
          rw [hl, List.map_append, List.map_cons, List.nodup_append] at hnd'
          have := hnd'.2.2 p.1 (List.mem_map.2 ⟨p, hp, rfl⟩) (S.row k).name (by simp)
          simpa [beq_iff_eq] using fun h => this h.symm
        unfold Series.select
        rw [hnames, if_neg]
        · rw [List.map_ofFn]
          congr 1
          congr 1
          funext k
          simp only [Function.comp, Series.val, hl k]
          rfl
        · rintro ⟨-, h⟩
          rw [List.all_eq_true] at h
          have h0 := h (S.row ⟨0, Nat.pos_of_ne_zero hS.nonempty⟩).name (List.mem_ofFn.2 ⟨_, rfl⟩)
          rw [hl] at h0
          simp at h0
      unfold evaluate
      simp only [collect, List.append_nil]
      rw [hval, hval]
      rfl

/-- What the evaluators do elsewhere does not matter for a run that stays in the region. -/
theorem inside_of_everywhere {S : Setup n m} {A : Vec n → Prop} {y : ℝ} {I : Newton.EstI X (Fin n)}
    {lstsq : Newton.Lstsq (Fin n)} {N : Nat} {s : Autotuner.State (OneTuner X n) (Volt (Fin n)) (Volt (Fin n))}
    (h : CompletesInside (everywhere S A y) I lstsq A N s) : CompletesInside S I lstsq A N s := by
  obtain ⟨M, hM, ⟨s', hs', hc, q, hq, hmet⟩, hin⟩ := h
  have hiter : ∀ s : Autotuner.State (OneTuner X n) (Volt (Fin n)) (Volt (Fin n)), (∃ v, s.expt = volts v ∧ A v) →
      iterate (hierarchy I lstsq S.outs) (.ok ()) s = iterate (hierarchy I lstsq (everywhere S A y).outs) (.ok ()) s := by
    rintro s ⟨v, hv, hA⟩
    have ho : (everywhere S A y).outs s.expt = S.outs s.expt := by rw [hv]; exact everywhere_outs S y hA
    simp only [iterate, hierarchy, isComplete, ho]
    rfl
  have hsame : ∀ j s, (∀ i ≤ j, ∃ s', iterates (hierarchy I lstsq (everywhere S A y).outs) i s = .ok s' ∧
      ∃ v, s'.expt = volts v ∧ A v) →
      iterates (hierarchy I lstsq S.outs) j s = iterates (hierarchy I lstsq (everywhere S A y).outs) j s := by
    intro j
    induction j with
    | zero => intro s _; rfl
    | succ j ih =>
      intro s hs
      obtain ⟨s0, h0, hv⟩ := hs 0 (by omega)
      cases h0
      unfold iterates
      rw [hiter s hv]
      rcases hi : iterate (hierarchy I lstsq (everywhere S A y).outs) (.ok ()) s with ⟨s₁, ev, _ | _⟩
      · rfl
      · simp only
        refine ih s₁ fun i hij => ?_
        obtain ⟨s'', h1, h2⟩ := hs (i + 1) (by omega)
        unfold iterates at h1
        rw [hi] at h1
        exact ⟨s'', h1, h2⟩
  refine ⟨M, hM, ⟨s', ?_, hc, q, hq, hmet⟩, fun j hj => ?_⟩
  · rw [hsame M s hin]
    exact hs'
  · obtain ⟨s'', h1, h2⟩ := hin j hj
    refine ⟨s'', ?_, h2⟩
    rw [hsame j s fun i hi => hin i (by omega)]
    exact h1

end Qtune.EndToEnd
