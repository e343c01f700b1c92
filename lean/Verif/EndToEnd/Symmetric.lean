import Verif.EndToEnd.Cycles

/-! # Symmetric finite differences in the composition: helper lemmas -/

namespace Qtune.EndToEnd

open Qtune.Tuner Qtune.Gradient Qtune.Autotuner

variable {n m : Nat} {X : Type}

/-- The request of the first estimator becomes the next voltages. -/
theorem first_requests {S : Setup n (m + 1)} (hS : S.Sound) (hn : n ≠ 0) {μ : Val × Int} {I : Newton.EstI X (Fin n)}
    {lstsq : Newton.Lstsq (Fin n)} {E : Fin (m + 1) → X} {q p : Vec n} {t : OneTuner X n} (h : At S μ E q t) {e' : X}
    (hreq : I.require S.gates none (E 0) = (e', .ok (some fun i => some (some (p i)))))
    (hμ : ∀ M, μ.1 = some M → len (p - q) ≤ M) :
    ∃ t', nextVoltages (Newton.solver I lstsq) [] t = (t', .ok (volts p)) ∧
      Base S μ (Fin.cons e' fun j => E j.succ : Fin (m + 1) → X) t' := by
  apply suggestion h hμ
  have htj : Newton.tunedJacobian I [] t.solver = .ok none :=
    (Newton.tuned_jacobian_rows I [] t.solver).1 (by simp)
  have hreq' : I.require t.solver.gates none (E 0) = (e', .ok (some fun i => some (some (p i)))) := by
    rw [h.gates]; exact hreq
  have hzip : t.solver.target.zip t.solver.ests =
      [] ++ (S.row 0, E 0) :: (List.ofFn fun j : Fin m => S.row j.succ).zip
        (List.ofFn fun j : Fin m => E j.succ) := by
    rw [h.target, h.ests]
    simp [Setup.target, List.ofFn_succ]
  have := Newton.requests_have_priority I lstsq [] t.solver none htj [] _ _ _ hzip
    (by simp) (by rw [hS.desired 0]; simp) (fun i => some (some (p i)))
    (by rw [hreq']) ⟨⟨0, by omega⟩, by simp⟩
  rw [this, hreq']
  congr 2
  simp only [List.map_nil, List.nil_append, List.ofFn_succ, Fin.cons_zero, Fin.cons_succ]
  congr 1
  exact List.map_snd_zip (by simp)

/-- A symmetric estimator with steps up to `B` that has measured the response `f` at `c + d j` and `c - d j`. -/
def SymCol (gates : List (Fin n)) (B : ℝ) (f : Vec n → ℝ) (c : Vec n) {k : Nat} (d : Fin k → Vec n) (e : FD n) : Prop :=
  ∃ (eps : Vec n) (D : Fin k → Vec n × ℝ × ℝ), (∀ i, 0 < eps i ∧ eps i ≤ B) ∧ (∀ j, (D j).1 = d j) ∧
    Sym gates f c eps D e

/-- The same, and the first measurement of the next pair, at `c + x`. -/
def SymColHalf (gates : List (Fin n)) (B : ℝ) (f : Vec n → ℝ) (c : Vec n) {k : Nat} (d : Fin k → Vec n) (x : Vec n)
    (e : FD n) : Prop :=
  ∃ (eps : Vec n) (D : Fin k → Vec n × ℝ × ℝ) (s : ℝ), (∀ i, 0 < eps i ∧ eps i ≤ B) ∧ (∀ j, (D j).1 = d j) ∧
    SymHalf gates f c eps D x s e

theorem SymCol.request {orth : Orth n} (ho : OrthSpec orth) {gates : List (Fin n)}
    (hnd : gates.Nodup) (hall : ∀ i, i ∈ gates) {B : ℝ} {f : Vec n → ℝ} {c : Vec n} {k : Nat} {d : Fin k → Vec n}
    {e : FD n} (h : SymCol gates B f c d e) (hk : k < n) :
    ∃ x e', (LinearIndependent ℝ d → LinearIndependent ℝ (Fin.snoc d x : Fin (k + 1) → Vec n)) ∧ len x ≤ B ∧
      SymCol gates B f c d e' ∧
      (fdI orth).require gates none e = (e', .ok (some fun i => some (some ((c + x) i)))) := by
  obtain ⟨eps, D, heps, hD, hs⟩ := h
  obtain ⟨u, hu, -, hort, hreq⟩ := hs.require ho hnd (by rw [length_all hnd hall]; exact hk)
  refine ⟨scaled u eps, _, fun hli => ?_, ?_, ⟨eps, D, heps, hD,
    hs.requested (e.requested ++ [Gradient.request gates c eps (.offset u)])⟩, ?_⟩
  · exact independent_snoc hli (fun i => (heps i).1) hu fun j => by rw [← hD j]; exact hort j
  · have hB : 0 ≤ B := (heps ⟨0, by omega⟩).1.le.trans (heps _).2
    refine Real.sqrt_le_iff.2 ⟨hB, ?_⟩
    have hu' : ∑ i, u i * u i = 1 := hu
    calc ∑ i, scaled u eps i ^ 2 ≤ ∑ i, B ^ 2 * (u i * u i) := by
          refine Finset.sum_le_sum fun i _ => ?_
          have h3 : eps i ^ 2 ≤ B ^ 2 := pow_le_pow_left₀ (heps i).1.le (heps i).2 2
          calc scaled u eps i ^ 2 = eps i ^ 2 * (u i * u i) := by unfold scaled; ring
            _ ≤ B ^ 2 * (u i * u i) := mul_le_mul_of_nonneg_right h3 (mul_self_nonneg _)
      _ = B ^ 2 := by rw [← Finset.mul_sum, hu', mul_one]
  · simp only [fdI, hreq, Except.map, Option.map_some]
    congr 3
    funext i
    simp [Gradient.request, hall i, scaled]

theorem SymColHalf.request {orth : Orth n} {gates : List (Fin n)} (hall : ∀ i, i ∈ gates) {B : ℝ} {f : Vec n → ℝ}
    {c : Vec n} {k : Nat} {d : Fin k → Vec n} {x : Vec n} {e : FD n} (h : SymColHalf gates B f c d x e) :
    ∃ e', SymColHalf gates B f c d x e' ∧
      (fdI orth).require gates none e = (e', .ok (some fun i => some (some ((c - x) i)))) := by
  obtain ⟨eps, D, s, heps, hD, hs⟩ := h
  refine ⟨_, ⟨eps, D, s, heps, hD,
    hs.requested (e.requested ++ [Gradient.request gates c eps (.mirror (restrict gates (c + x)))])⟩, ?_⟩
  simp only [fdI, hs.require (orth := orth), Except.map, Option.map_some]
  congr 3
  funext i
  simp [Gradient.request, hall i, restrict]
  ring

theorem SymCol.update {orth : Orth n} {gates : List (Fin n)} (hall : ∀ i, i ∈ gates) {B : ℝ} {f : Vec n → ℝ}
    {c : Vec n} {k : Nat} {d : Fin k → Vec n} {e : FD n} (h : SymCol gates B f c d e) (x : Vec n) (y : ℝ) :
    ∃ e', (fdI orth).update (volts (c + x)) (some (f (c + x))) (some y) e = (e', .ok ()) ∧
      SymColHalf gates B f c d x e' := by
  obtain ⟨eps, D, heps, hD, hs⟩ := h
  obtain ⟨e', he', h'⟩ := hs.update (x := x) (fun i hi => absurd (hall i) hi) y
  exact ⟨e', he', eps, D, y, heps, hD, h'⟩

theorem SymColHalf.update {orth : Orth n} {gates : List (Fin n)} {B : ℝ} {f : Vec n → ℝ}
    {c : Vec n} {k : Nat} {d : Fin k → Vec n} {x : Vec n} {e : FD n} (h : SymColHalf gates B f c d x e)
    (hk : k + 1 ≠ n) (y : ℝ) :
    ∃ e', (fdI orth).update (volts (c - x)) (some (f (c - x))) (some y) e = (e', .ok ()) ∧
      SymCol gates B f c (Fin.snoc d x : Fin (k + 1) → Vec n) e' := by
  obtain ⟨eps, D, s, heps, hD, hs⟩ := h
  obtain ⟨e', h', h1, -⟩ := hs.update y
  refine ⟨e', h1 hk, eps, _, heps, fun j => ?_, h'⟩
  refine Fin.lastCases ?_ (fun j => ?_) j
  · simp
  · simp [hD]

/-- The last measurement: the gradient of an affine response is found. -/
theorem SymColHalf.last {orth : Orth n} {gates : List (Fin n)} {B : ℝ} {f : Vec n → ℝ} {g : Vec n} (hf : IsAffine f g)
    {c : Vec n} {k : Nat} {d : Fin k → Vec n} {x : Vec n} {e : FD n} (h : SymColHalf gates B f c d x e)
    (hk : k + 1 = n) (hli : LinearIndependent ℝ (Fin.snoc d x : Fin (k + 1) → Vec n)) (y : ℝ) :
    ∃ e', (fdI orth).update (volts (c - x)) (some (f (c - x))) (some y) e = (e', .ok ()) ∧ Done g e' := by
  subst hk
  obtain ⟨eps, D, s, heps, hD, hs⟩ := h
  obtain ⟨e', h', -, h2⟩ := hs.update y
  obtain ⟨C, hC⟩ := gradientOf_pairs (by omega) hf c _ (by
    convert hli using 1
    funext j
    refine Fin.lastCases ?_ (fun j => ?_) j
    · show ((Fin.snoc D (x, s, y) : Fin (k + 1) → Vec (k + 1) × ℝ × ℝ) (Fin.last k)).1 = _
      simp
    · show ((Fin.snoc D (x, s, y) : Fin (k + 1) → Vec (k + 1) × ℝ × ℝ) j.castSucc).1 = _
      simp [hD])
  have := h2 rfl
  rw [h'.stored, hC] at this
  exact ⟨_, this, by rw [h'.pos]; simp, C, rfl⟩

/-- The last measurement if one of the displacements is zero. -/
theorem SymColHalf.fails {orth : Orth n} {gates : List (Fin n)} {B : ℝ} {f : Vec n → ℝ}
    {c : Vec n} {k : Nat} {d : Fin k → Vec n} {x : Vec n} {e : FD n} (h : SymColHalf gates B f c d x e)
    (hk : k + 1 = n) (hz : ∃ j, (Fin.snoc d x : Fin (k + 1) → Vec n) j = 0) (y : ℝ) :
    ∃ e', (fdI orth).update (volts (c - x)) (some (f (c - x))) (some y) e = (e', .error .evaluationError) := by
  subst hk
  obtain ⟨eps, D, s, heps, hD, hs⟩ := h
  obtain ⟨e', h', -, h2⟩ := hs.update y
  obtain ⟨j, hj⟩ := hz
  have := h2 rfl
  rw [h'.stored, gradientOf_pairs_zero (by omega) f c _ j] at this
  · exact ⟨_, this⟩
  · revert hj
    refine Fin.lastCases ?_ (fun j => ?_) j
    · intro hj
      simpa using hj
    · intro hj
      simpa [hD] using hj

/-- A claim about the remaining calls that a cycle with an evaluation within `B` of `c` takes three calls to
reach. -/
def Passes (S : Setup n m) (μ : Val × Int) (I : Newton.EstI X (Fin n)) (lstsq : Newton.Lstsq (Fin n)) (c : Vec n) (B : ℝ)
    (G : Nat → Autotuner.State (OneTuner X n) (Volt (Fin n)) (Volt (Fin n)) → Prop) : Prop :=
  ∀ (t t' : OneTuner X n) (E' : Fin m → X) (q q' : Vec n) (N : Nat),
    nextVoltages (Newton.solver I lstsq) [] t = (t', .ok (volts q')) → Base S μ E' t' → len (q' - c) ≤ B →
    (∀ k, ∀ y ∈ S.seen k, ∃ e', I.update (volts q') (some (S.scaled k q')) (some y) (E' k) = (e', .ok ())) →
    (∀ (y : Fin m → ℝ) (t'' : OneTuner X n),
      At S μ (fun k => (I.update (volts q') (some (S.scaled k q')) (some (y k)) (E' k)).1) q' t'' →
      G N ⟨t'', volts q', 0, true, none⟩) →
    G (3 + N) ⟨t, volts q, 0, true, none⟩

theorem completes_passes {S : Setup n m} (hS : S.Sound) {μ : Val × Int} {I : Newton.EstI X (Fin n)}
    {lstsq : Newton.Lstsq (Fin n)} {c : Vec n} {B : ℝ} : Passes S μ I lstsq c B (CompletesWithin S I lstsq) :=
  fun _ _ _ _ _ N hnext hbase _ hupd hcont => cycle_or hS hnext hbase hupd N fun y t'' _ _ hAt => hcont y t'' hAt

variable {G : Nat → Autotuner.State (OneTuner (FD n) n) (Volt (Fin n)) (Volt (Fin n)) → Prop}

/-- The first measurement of a pair. -/
theorem first_half {S : Setup n (m + 1)} (hS : S.Sound) {μ : Val × Int} {B : ℝ} {orth : Orth n}
    (ho : OrthSpec orth) {lstsq : Newton.Lstsq (Fin n)} {c : Vec n} (hG : Passes S μ (fdI orth) lstsq c B G)
    (hμ : ∀ M, μ.1 = some M → 2 * B ≤ M) {k : Nat} (hk : k < n) {d : Fin k → Vec n} {N : Nat}
    {E : Fin (m + 1) → FD n} {q : Vec n} {t : OneTuner (FD n) n} (h : At S μ E q t) (hq : len (q - c) ≤ B)
    (hcol : ∀ j, SymCol S.gates B (S.scaled j) c d (E j))
    (hcont : ∀ (x : Vec n) (E : Fin (m + 1) → FD n) (t : OneTuner (FD n) n),
      (LinearIndependent ℝ d → LinearIndependent ℝ (Fin.snoc d x : Fin (k + 1) → Vec n)) → len x ≤ B →
      At S μ E (c + x) t → (∀ j, SymColHalf S.gates B (S.scaled j) c d x (E j)) →
      G N ⟨t, volts (c + x), 0, true, none⟩) :
    G (3 + N) ⟨t, volts q, 0, true, none⟩ := by
  obtain ⟨x, e', hli, hlen, hcol', hreq⟩ := (hcol 0).request ho hS.gates_nodup hS.gates_all hk
  obtain ⟨t₁, hnext, hbase⟩ := first_requests hS (by omega) h hreq (lstsq := lstsq) (by
    intro M hM
    have : c + x - q = (c - q) + x := by abel
    rw [this]
    refine (len_add _ _).trans ?_
    rw [len_sub_comm c q]
    linarith [hμ M hM])
  have hE : ∀ j, SymCol S.gates B (S.scaled j) c d ((Fin.cons e' fun j => E j.succ : Fin (m + 1) → FD n) j) := by
    intro j
    refine Fin.cases ?_ (fun j => ?_) j
    · simpa using hcol'
    · simpa using hcol j.succ
  refine hG _ _ _ _ _ _ hnext hbase (by simpa using hlen) (fun j y _ => ?_) fun y t₂ hAt => ?_
  · obtain ⟨e, he, -⟩ := (hE j).update (orth := orth) hS.gates_all x y
    exact ⟨e, he⟩
  · refine hcont x _ _ hli hlen hAt fun j => ?_
    obtain ⟨e, he, hc⟩ := (hE j).update (orth := orth) hS.gates_all x (y j)
    rw [he]
    exact hc

/-- The voltages of the second measurement of a pair. -/
theorem mirror_requested {S : Setup n (m + 1)} (hS : S.Sound) (hn : n ≠ 0) {μ : Val × Int} {B : ℝ} {orth : Orth n}
    {lstsq : Newton.Lstsq (Fin n)} {c : Vec n} (hμ : ∀ M, μ.1 = some M → 2 * B ≤ M) {k : Nat} {d : Fin k → Vec n}
    {x : Vec n} (hx : len x ≤ B) {E : Fin (m + 1) → FD n} {t : OneTuner (FD n) n} (h : At S μ E (c + x) t)
    (hcol : ∀ j, SymColHalf S.gates B (S.scaled j) c d x (E j)) :
    ∃ E' t', nextVoltages (Newton.solver (fdI orth) lstsq) [] t = (t', .ok (volts (c - x))) ∧ Base S μ E' t' ∧
      ∀ j, SymColHalf S.gates B (S.scaled j) c d x (E' j) := by
  obtain ⟨e₂, hh, hreq₂⟩ := (hcol 0).request (orth := orth) hS.gates_all
  obtain ⟨t₃, hnext₂, hbase₂⟩ := first_requests hS hn h hreq₂ (lstsq := lstsq) (by
    intro M hM
    have : c - x - (c + x) = (-2 : ℝ) • x := by
      funext i
      simp
      ring
    rw [this, len_smul]
    norm_num
    linarith [hμ M hM])
  refine ⟨_, _, hnext₂, hbase₂, fun j => ?_⟩
  refine Fin.cases ?_ (fun j => ?_) j
  · simpa using hh
  · simpa using hcol j.succ

/-- The second measurement of a pair. -/
theorem second_half {S : Setup n (m + 1)} (hS : S.Sound) (hn : n ≠ 0) {μ : Val × Int} {B : ℝ} {orth : Orth n}
    {lstsq : Newton.Lstsq (Fin n)} {c : Vec n} (hG : Passes S μ (fdI orth) lstsq c B G)
    (hμ : ∀ M, μ.1 = some M → 2 * B ≤ M) {k : Nat} {d : Fin k → Vec n} {N : Nat} {x : Vec n} (hx : len x ≤ B)
    {E : Fin (m + 1) → FD n} {t : OneTuner (FD n) n} (h : At S μ E (c + x) t)
    (hcol : ∀ j, SymColHalf S.gates B (S.scaled j) c d x (E j)) (P : Fin (m + 1) → FD n → Prop)
    (hupd : ∀ j e, SymColHalf S.gates B (S.scaled j) c d x e → ∀ y, ∃ e',
        (fdI orth).update (volts (c - x)) (some (S.scaled j (c - x))) (some y) e = (e', .ok ()) ∧ P j e')
    (hcont : ∀ (E : Fin (m + 1) → FD n) (t : OneTuner (FD n) n),
      At S μ E (c - x) t → len (c - x - c) ≤ B → (∀ j, P j (E j)) → G N ⟨t, volts (c - x), 0, true, none⟩) :
    G (3 + N) ⟨t, volts (c + x), 0, true, none⟩ := by
  obtain ⟨E', t', hnext, hbase, hE⟩ := mirror_requested (orth := orth) (lstsq := lstsq) hS hn hμ hx h hcol
  have hlen : len (c - x - c) ≤ B := by
    have : c - x - c = (-1 : ℝ) • x := by
      funext i
      simp
    rw [this, len_smul]
    simpa using hx
  refine hG _ _ _ _ _ _ hnext hbase hlen (fun j y _ => ?_) fun y t₂ hAt => ?_
  · obtain ⟨e, he, -⟩ := hupd j _ (hE j) y
    exact ⟨e, he⟩
  · refine hcont _ _ hAt hlen fun j => ?_
    obtain ⟨e, he, hc⟩ := hupd j _ (hE j) (y j)
    rw [he]
    exact hc

/-- Collecting the measurements: `r + 1` pairs are missing. -/
theorem collect_symmetric {S : Setup n (m + 1)} (hS : S.Valid) {μ : Val × Int} {B : ℝ} {orth : Orth n}
    (ho : OrthSpec orth) {lstsq : Newton.Lstsq (Fin n)} (c : Vec n) (hμ : ∀ M, μ.1 = some M → 2 * B ≤ M) (K : Nat)
    (hK : ∀ (E : Fin (m + 1) → FD n) (q : Vec n) (t : OneTuner (FD n) n), At S μ E q t → len (q - c) ≤ B →
      (∀ k, Done (fun i => S.grad k i / S.scale k) (E k)) →
      CompletesWithin S (fdI orth) lstsq K ⟨t, volts q, 0, true, none⟩) :
    ∀ (r k : Nat) (_ : k + r + 1 = n) (d : Fin k → Vec n) (_ : LinearIndependent ℝ d)
      (E : Fin (m + 1) → FD n) (q : Vec n) (t : OneTuner (FD n) n), At S μ E q t → len (q - c) ≤ B →
      (∀ j, SymCol S.gates B (S.scaled j) c d (E j)) →
      CompletesWithin S (fdI orth) lstsq (6 * (r + 1) + K) ⟨t, volts q, 0, true, none⟩ := by
  have hG := completes_passes (I := fdI orth) (lstsq := lstsq) (μ := μ) (c := c) (B := B) hS.toSound
  intro r
  induction r with
  | zero =>
    intro k hk d hd E q t h hq hcol
    rw [show 6 * (0 + 1) + K = 3 + (3 + K) by ring]
    refine first_half hS.toSound ho hG hμ (by omega) h hq hcol fun x E t hli hx hAt hhalf => ?_
    refine second_half hS.toSound (by omega) hG hμ hx hAt hhalf (fun j e => Done (fun i => S.grad j i / S.scale j) e)
      (fun j e he y => ?_) (fun E t hAt hq hP => hK E _ t hAt hq hP)
    exact he.last (Setup.scaled_affine hS.affine j) (by omega) (hli hd) y
  | succ r ih =>
    intro k hk d hd E q t h hq hcol
    rw [show 6 * (r + 1 + 1) + K = 3 + (3 + (6 * (r + 1) + K)) by ring]
    refine first_half hS.toSound ho hG hμ (by omega) h hq hcol fun x E t hli hx hAt hhalf => ?_
    refine second_half hS.toSound (by omega) hG hμ hx hAt hhalf
      (fun j e => SymCol S.gates B (S.scaled j) c (Fin.snoc d x : Fin (k + 1) → Vec n) e)
      (fun j e he y => ?_) (fun E t hAt hq hP => ih (k + 1) (by omega) _ (hli hd) E _ t hAt hq hP)
    exact he.update (by omega) y

/-! ### The tuning that fails -/

/-- `N` calls of `iterate` succeed, the tuning is not complete after them, and the next call raises `err`. -/
def RaisesAfter (S : Setup n m) (I : Newton.EstI X (Fin n)) (lstsq : Newton.Lstsq (Fin n)) (err : PyErr) (N : Nat)
    (s : Autotuner.State (OneTuner X n) (Volt (Fin n)) (Volt (Fin n))) : Prop :=
  ∃ s', iterates (hierarchy I lstsq S.outs) N s = .ok s' ∧ isComplete (hierarchy I lstsq S.outs) s' = false ∧
    (iterate (hierarchy I lstsq S.outs) (.ok ()) s').2.2 = .error err

theorem raises_passes {S : Setup n m} (hS : S.Sound) {μ : Val × Int} {I : Newton.EstI X (Fin n)}
    {lstsq : Newton.Lstsq (Fin n)} {c : Vec n} {B : ℝ} {err : PyErr}
    (hfar : ∀ q, len (q - c) ≤ B → ¬ SetPointsMet S q) :
    Passes S μ I lstsq c B (RaisesAfter S I lstsq err) := by
  intro t t' E' q q' N hnext hbase hq' hupd hcont
  obtain ⟨y, t'', b, hev, hy, hAt, hb⟩ := evaluation hS (I := I) (lstsq := lstsq) hbase q' hupd
  have hrun := cycle (q := q) hnext hev
  cases b with
  | true => exact absurd (hb.1 rfl) (hfar q' hq')
  | false =>
    obtain ⟨s', hs', hc⟩ := hcont y t'' hAt
    exact ⟨s', by rw [iterates_add _ 3 N _ _ hrun]; exact hs', hc⟩

/-- An exception of the first estimator leaves the evaluation. -/
theorem evaluation_raises {S : Setup n (m + 1)} (hS : S.Sound) {μ : Val × Int} {I : Newton.EstI X (Fin n)}
    {lstsq : Newton.Lstsq (Fin n)} {E : Fin (m + 1) → X} {t : OneTuner X n} (h : Base S μ E t) (q : Vec n) {err : PyErr}
    (hupd : ∀ y, ∃ e', I.update (volts q) (some (S.scaled 0 q)) (some y) (E 0) = (e', .error err)) :
    ∃ t', isTuned (Newton.solver I lstsq) (S.outs (volts q)) (volts q) t = (t', .error err) := by
  classical
  obtain ⟨y, hyv, hy⟩ := hS.evaluators q
  have hy' : evaluate S.target (S.outs (volts q)) = _ := hy
  obtain ⟨hr1, hr2⟩ := Setup.rescaled hS q y
  obtain ⟨vals, hvals⟩ : ∃ vals : Series,
    vals = List.ofFn fun k => ((S.row k).name, some (S.scaled k q)) := ⟨_, rfl⟩
  obtain ⟨vars, hvars⟩ : ∃ vars : Series,
    vars = List.ofFn fun k => ((S.row k).name, some (y k / (S.scale k * S.scale k))) := ⟨_, rfl⟩
  rw [← hvals] at hr1
  rw [← hvars] at hr2
  have hvalk : ∀ k, vals.val (S.row k).name = some (S.scaled k q) := by
    intro k
    rw [hvals]
    exact Setup.val_ofFn hS (fun k => some (S.scaled k q)) k
  have hidx : vals.index = S.target.names := by
    rw [S.names_eq]
    simp [hvals, Series.index, List.map_ofFn, Function.comp_def]
  have hidx' : vars.index = S.target.names := by
    rw [S.names_eq]
    simp [hvars, Series.index, List.map_ofFn, Function.comp_def]
  have hsel1 : vals.select t.lastValues.index =
      .ok (t.lastValues.index.map fun l => (l, vals.val l)) :=
    select_sub (by rw [hidx]; exact h.lastIndex)
  have hsel2 : vars.select t.lastValues.index =
      .ok (t.lastValues.index.map fun l => (l, vars.val l)) :=
    select_sub (by rw [hidx']; exact h.lastIndex)
  have hval : ∀ l ∈ S.target.names, (vals.val l).isSome := by
    intro l hl
    rw [S.names_eq] at hl
    obtain ⟨k, rfl⟩ := (List.mem_ofFn' _ _).1 hl
    change (vals.val (S.row k).name).isSome
    rw [hvalk]
    rfl
  obtain ⟨es, hfeed⟩ : ∃ es, Newton.feed I S.target (volts q) (List.ofFn E) vals (vars.map Prod.snd) =
      (es, .error err) := by
    obtain ⟨e', he'⟩ := hupd (y 0 / (S.scale 0 * S.scale 0))
    rw [hvars, hvals]
    simp only [List.ofFn_succ, List.map_cons]
    unfold Newton.feed
    rw [Setup.row? hS 0]
    simp only
    rw [if_neg (by rw [hS.desired 0]; simp), he']
    exact ⟨_, rfl⟩
  have hupdate : Newton.update I (volts q) vals vars t.solver = ({ t.solver with ests := es }, .error err) := by
    unfold Newton.update
    have hsel : vals.select S.target.names = .ok vals := by
      rw [hvals]
      exact Setup.select hS _
    rw [h.index, hsel]
    simp only
    rw [h.target, h.ests, hfeed]
  unfold isTuned
  simp only
  rw [if_neg (by simp [h.queued])]
  have htarget : (Newton.solver I lstsq).target t.solver = S.target := h.target
  simp only [htarget, hy', hr1, hr2]
  simp only [hsel1, Series.index_map_mk, hsel2]
  rw [if_neg]
  · have hupdate' : (Newton.solver I lstsq).update (volts q) vals vars t.solver = _ := hupdate
    simp only [hupdate']
    exact ⟨_, rfl⟩
  · simp only [List.any_map, Bool.not_eq_true, List.any_eq_false, Function.comp_def]
    intro l hl
    have := hval l (h.lastIndex hl)
    simpa [Option.isSome_iff_ne_none] using this

/-- A suggestion, its setting and an evaluation that raises. -/
theorem cycle_raises {S : Setup n m} {I : Newton.EstI X (Fin n)} {lstsq : Newton.Lstsq (Fin n)} {t t' t'' : OneTuner X n}
    {q q' : Vec n} {err : PyErr}
    (hnext : nextVoltages (Newton.solver I lstsq) [] t = (t', .ok (volts q')))
    (hev : isTuned (Newton.solver I lstsq) (S.outs (volts q')) (volts q') t' = (t'', .error err)) :
    RaisesAfter S I lstsq err 2 ⟨t, volts q, 0, true, none⟩ := by
  let H := hierarchy I lstsq S.outs
  have h1 : (iterate H (.ok ()) ⟨t, volts q, 0, true, none⟩).1 =
      ⟨t', volts q, 0, false, some (volts q')⟩ ∧
      (iterate H (.ok ()) ⟨t, volts q, 0, true, none⟩).2.2 = .ok () := by
    simp [iterate, H, hierarchy, isComplete, hnext, finish]
  have h2 : (iterate H (.ok ()) ⟨t', volts q, 0, false, some (volts q')⟩).1 =
      ⟨t', volts q', 0, false, none⟩ ∧
      (iterate H (.ok ()) ⟨t', volts q, 0, false, some (volts q')⟩).2.2 = .ok () := by
    simp [iterate, H, hierarchy, isComplete, finish, volts]
  have step : ∀ (N : Nat) (s s' : Autotuner.State (OneTuner X n) (Volt (Fin n)) (Volt (Fin n))),
      (iterate H (.ok ()) s).1 = s' ∧ (iterate H (.ok ()) s).2.2 = .ok () →
      iterates H (N + 1) s = iterates H N s' := by
    rintro N s s' ⟨ha, hb⟩
    conv_lhs => unfold iterates
    rcases hi : iterate H (.ok ()) s with ⟨s₁, ev, r⟩
    rw [hi] at ha hb
    simp only at ha hb
    subst ha hb
    rfl
  refine ⟨⟨t', volts q', 0, false, none⟩, ?_, ?_, ?_⟩
  · change iterates H 2 _ = _
    rw [step 1 _ _ h1, step 0 _ _ h2]
    rfl
  · simp [hierarchy, isComplete]
  · simp [iterate, hierarchy, isComplete, hev]

/-- The last measurement of a tuning with a pair at distance zero. -/
theorem last_half_raises {S : Setup n (m + 1)} (hS : S.Sound) {μ : Val × Int} {B : ℝ} {orth : Orth n}
    {lstsq : Newton.Lstsq (Fin n)} {c : Vec n} (hμ : ∀ M, μ.1 = some M → 2 * B ≤ M) {k : Nat} (hk : k + 1 = n)
    {d : Fin k → Vec n} {x : Vec n} (hx : len x ≤ B) (hz : ∃ j, (Fin.snoc d x : Fin (k + 1) → Vec n) j = 0)
    {E : Fin (m + 1) → FD n} {t : OneTuner (FD n) n} (h : At S μ E (c + x) t)
    (hcol : ∀ j, SymColHalf S.gates B (S.scaled j) c d x (E j)) :
    RaisesAfter S (fdI orth) lstsq .evaluationError 2 ⟨t, volts (c + x), 0, true, none⟩ := by
  obtain ⟨E', t', hnext, hbase, hE⟩ := mirror_requested (orth := orth) (lstsq := lstsq) hS (by omega) hμ hx h hcol
  obtain ⟨t'', hev⟩ := evaluation_raises (lstsq := lstsq) (I := fdI orth) hS hbase (c - x)
    (fun y => (hE 0).fails hk hz y)
  exact cycle_raises hnext hev

/-- Collecting the measurements if one of the pairs is at distance zero: `r + 1` pairs are missing. -/
theorem collect_raises {S : Setup n (m + 1)} (hS : S.Sound) {μ : Val × Int} {B : ℝ} {orth : Orth n}
    (ho : OrthSpec orth) {lstsq : Newton.Lstsq (Fin n)} (c : Vec n) (hμ : ∀ M, μ.1 = some M → 2 * B ≤ M)
    (hfar : ∀ q, len (q - c) ≤ B → ¬ SetPointsMet S q) :
    ∀ (r k : Nat) (_ : k + r + 1 = n) (d : Fin k → Vec n) (_ : ∃ j, d j = 0)
      (E : Fin (m + 1) → FD n) (q : Vec n) (t : OneTuner (FD n) n), At S μ E q t → len (q - c) ≤ B →
      (∀ j, SymCol S.gates B (S.scaled j) c d (E j)) →
      RaisesAfter S (fdI orth) lstsq .evaluationError (6 * r + 5) ⟨t, volts q, 0, true, none⟩ := by
  have hG := raises_passes (I := fdI orth) (lstsq := lstsq) (μ := μ) (err := .evaluationError) hS hfar
  intro r
  induction r with
  | zero =>
    rintro k hk d ⟨j, hj⟩ E q t h hq hcol
    rw [show 6 * 0 + 5 = 3 + 2 by norm_num]
    refine first_half hS ho hG hμ (by omega) h hq hcol fun x E t hli hx hAt hhalf => ?_
    exact last_half_raises hS hμ (by omega) hx ⟨j.castSucc, by simpa using hj⟩ hAt hhalf
  | succ r ih =>
    rintro k hk d ⟨j, hj⟩ E q t h hq hcol
    rw [show 6 * (r + 1) + 5 = 3 + (3 + (6 * r + 5)) by ring]
    refine first_half hS ho hG hμ (by omega) h hq hcol fun x E t hli hx hAt hhalf => ?_
    refine second_half hS (by omega) hG hμ hx hAt hhalf
      (fun j e => SymCol S.gates B (S.scaled j) c (Fin.snoc d x : Fin (k + 1) → Vec n) e)
      (fun j e he y => ?_) (fun E t hAt hq hP => ih (k + 1) (by omega) _ ⟨j.castSucc, by simpa using hj⟩ E _ t hAt hq hP)
    exact he.update (by omega) y

/-- The first evaluation. -/
theorem evaluation_at_start {S : Setup n m} (hS : S.Sound) {μ : Val × Int} {I : Newton.EstI X (Fin n)}
    {lstsq : Newton.Lstsq (Fin n)} {E : Fin m → X} {t : OneTuner X n} (h : Base S μ E t) (c : Vec n)
    (hupd : ∀ k, ∀ y ∈ S.seen k, ∃ e', I.update (volts c) (some (S.scaled k c)) (some y) (E k) = (e', .ok ())) :
    ∃ (y : Fin m → ℝ) (t' : OneTuner X n) (b : Bool),
      iterates (hierarchy I lstsq S.outs) 1 (fresh t (volts c)) =
        .ok ⟨t', volts c, if b then 1 else 0, !b, none⟩ ∧
      At S μ (fun k => (I.update (volts c) (some (S.scaled k c)) (some (y k)) (E k)).1) c t' ∧
      (b = true → SetPointsMet S c) := by
  obtain ⟨y, t', b, hev, -, hAt, hb⟩ := evaluation (lstsq := lstsq) (I := I) hS h c hupd
  refine ⟨y, t', b, ?_, hAt, fun hb' => hb.1 hb'⟩
  have : (iterate (hierarchy I lstsq S.outs) (.ok ()) (fresh t (volts c))).1 =
      ⟨t', volts c, if b then 1 else 0, !b, none⟩ ∧
      (iterate (hierarchy I lstsq S.outs) (.ok ()) (fresh t (volts c))).2.2 = .ok () := by
    cases b <;> simp [iterate, fresh, hierarchy, isComplete, finish, hev]
  unfold iterates
  rcases hi : iterate (hierarchy I lstsq S.outs) (.ok ()) (fresh t (volts c)) with ⟨s₁, ev, r⟩
  rw [hi] at this
  simp only at this
  obtain ⟨rfl, rfl⟩ := this
  rfl

end Qtune.EndToEnd
