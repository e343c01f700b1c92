import Verif.EndToEnd.ToldSpec
import Verif.EndToEnd.LimitsRun
import Verif.EndToEnd.PropsSource

/-! # Runs with limits of which the experiment does not know -/

namespace Qtune.EndToEnd

open Qtune.Tuner Qtune.Gradient Qtune.Autotuner

variable {n m : Nat} {X : Type}

/-- What is nearest in a convex region is at an obtuse angle to everything in the region. -/
theorem obtuse {A : Vec n → Prop} (hconv : ∀ a b, A a → A b → ∀ s : ℝ, 0 ≤ s → s ≤ 1 → A (a + s • (b - a)))
    {q p : Vec n} (hp : A p) (hnear : ∀ z, A z → len (q - p) ≤ len (q - z)) {z : Vec n} (hz : A z) :
    ∑ i, (q i - p i) * (z i - p i) ≤ 0 := by
  by_contra hpos
  rw [not_le] at hpos
  set a := ∑ i, (q i - p i) * (z i - p i) with ha
  set b := ∑ i, (z i - p i) ^ 2 with hb
  have hb0 : 0 ≤ b := Finset.sum_nonneg fun i _ => sq_nonneg _
  have key : ∀ s : ℝ, 0 ≤ s → s ≤ 1 → 2 * s * a ≤ s ^ 2 * b := by
    intro s h0 h1
    have h2 := pow_le_pow_left₀ (len_nonneg _) (hnear _ (hconv p z hp hz s h0 h1)) 2
    rw [len_sq, len_sq] at h2
    have h3 : ∑ i, (q - (p + s • (z - p)) : Vec n) i ^ 2 = ∑ i, (q - p : Vec n) i ^ 2 - 2 * s * a + s ^ 2 * b := by
      rw [ha, hb, Finset.mul_sum, Finset.mul_sum, ← Finset.sum_sub_distrib, ← Finset.sum_add_distrib]
      refine Finset.sum_congr rfl fun i _ => ?_
      simp only [Pi.add_apply, Pi.sub_apply, Pi.smul_apply, smul_eq_mul]
      ring
    rw [h3] at h2
    linarith
  have hab : 0 < a + b := by linarith
  have h1 := key (a / (a + b)) (by positivity) (by rw [div_le_one hab]; linarith)
  have h2 : 2 * (a / (a + b)) * a - (a / (a + b)) ^ 2 * b = a ^ 2 * (2 * a + b) / (a + b) ^ 2 := by
    field_simp
    ring
  have h3 : 0 < a ^ 2 * (2 * a + b) / (a + b) ^ 2 := by positivity
  linarith

/-- What has been gained since the voltages `b`, when `q` is told and `p` is applied. -/
noncomputable def gained (b z q p : Vec n) : ℝ := ∑ i, ((p i - b i) ^ 2 + 2 * (q i - b i) * (z i - p i))

theorem gained_le {b z q p : Vec n} (h : ∑ i, (q i - p i) * (z i - p i) ≤ 0) :
    gained b z q p ≤ len (b - z) ^ 2 := by
  have h1 : len (b - z) ^ 2 = gained b z q p + ∑ i, (z i - p i) ^ 2 - 2 * ∑ i, (q i - p i) * (z i - p i) := by
    unfold gained
    rw [len_sq, Finset.mul_sum, ← Finset.sum_add_distrib, ← Finset.sum_sub_distrib]
    refine Finset.sum_congr rfl fun i _ => ?_
    simp only [Pi.sub_apply]
    ring
  have h2 : 0 ≤ ∑ i, (z i - p i) ^ 2 := Finset.sum_nonneg fun i _ => sq_nonneg _
  linarith

theorem gained_step {b z q p x p' : Vec n} (hx : ∑ i, x i * (z i - p i) = len x ^ 2)
    (h : ∑ i, (q i - p i) * (p' i - p i) ≤ 0) :
    gained b z q p + len x ^ 2 ≤ gained b z (q + x) p' := by
  have h1 : gained b z (q + x) p' = gained b z q p + len x ^ 2 + ∑ i, (p' i - p i - x i) ^ 2 -
      2 * ∑ i, (q i - p i) * (p' i - p i) + 2 * (∑ i, x i * (z i - p i) - len x ^ 2) := by
    unfold gained
    rw [len_sq, ← Finset.sum_sub_distrib, Finset.mul_sum, Finset.mul_sum, ← Finset.sum_add_distrib,
      ← Finset.sum_add_distrib, ← Finset.sum_sub_distrib, ← Finset.sum_add_distrib]
    refine Finset.sum_congr rfl fun i _ => ?_
    simp only [Pi.add_apply]
    ring
  have h2 : 0 ≤ ∑ i, (p' i - p i - x i) ^ 2 := Finset.sum_nonneg fun i _ => sq_nonneg _
  rw [hx, sub_self, mul_zero] at h1
  linarith

/-- Nobody requests anything: the suggestion is the shortest step that leads to the set points according to the
estimates `G`, whatever the responses are. -/
theorem shortest_suggestion {S : Setup n m} (hS : S.Sound) {μ : Val × Int} {I : Newton.EstI X (Fin n)}
    {lstsq : Newton.Lstsq (Fin n)} (hls : Newton.LstsqSpec lstsq) {E : Fin m → X} {q : Vec n} {t : OneTuner X n}
    (h : At S μ E q t) {G : Fin m → Vec n} (hsilent : ∀ k tj, I.require S.gates tj (E k) = (E k, .ok none))
    (hG : ∀ k, I.estimate (E k) = some fun i => some (G k i)) (hind : LinearIndependent ℝ G) :
    ∃ x : Vec n, Newton.suggest I lstsq [] t.solver =
        ({ t.solver with ests := List.ofFn E }, .ok fun i => some (some ((q + x) i))) ∧
      (∀ k, ∑ i, G k i * x i = S.desired k - S.scaled k q) ∧
      ∀ y : Vec n, (∀ k, ∑ i, G k i * y i = S.desired k - S.scaled k q) → len x ≤ len y := by
  have hready : Newton.Ready I t.solver q G := by
    refine ⟨by rw [h.target]; simp [Setup.target], h.pos, ?_, ?_, ?_⟩
    · intro re hre _ tj
      have hmem := (List.of_mem_zip hre).2
      rw [h.ests] at hmem
      obtain ⟨k, hk⟩ := (List.mem_ofFn' _ _).1 hmem
      rw [← hk, h.gates]
      exact hsilent k tj
    · rw [h.ests, List.map_ofFn]
      congr 1
      funext k
      exact hG k
    · unfold Newton.FullRowRank
      rw [h.gates]
      let L : (Fin n → ℝ) →ₗ[ℝ] ({i // i ∈ S.gates} → ℝ) :=
        { toFun := fun w i => w i.1
          map_add' := fun _ _ => rfl
          map_smul' := fun _ _ => rfl }
      refine hind.map' L (LinearMap.ker_eq_bot.2 ?_)
      intro w w' hw
      funext i
      exact congrFun hw ⟨i, hS.gates_all i⟩
  obtain ⟨x, hsug, hx, hshort⟩ := Newton.newton_step_meets_set_points hls hready hS.nonempty []
    (fun k => S.scaled k q) S.desired (by
      intro k r hr
      have : r = S.row k := by
        have hr' : t.solver.target[k.1]? = some r := hr
        rw [h.target] at hr'
        simp [Setup.target] at hr'
        exact hr'.symm
      subst this
      refine ⟨hS.desired k, ?_⟩
      rw [h.values]
      exact Setup.val_ofFn hS (fun k => some (S.scaled k q)) k)
  have hgates : t.solver.gates.toFinset = Finset.univ := by
    rw [h.gates]
    ext i
    simp [hS.gates_all i]
  have hchange : ∀ k (z : Vec n), Newton.change t.solver.gates (G k) z = ∑ i, G k i * z i := by
    intro k z
    unfold Newton.change
    rw [hgates]
  refine ⟨x, ?_, fun k => ?_, fun y hy => ?_⟩
  · rw [hsug]
    congr 1
    · have := h.ests
      rcases t with ⟨⟨T, es, gs, ps, vs⟩, _, _, _, _, _, _, _, _, _⟩
      simp only at this ⊢
      rw [this]
    · congr 1
      funext i
      rw [if_pos (by rw [h.gates]; exact hS.gates_all i)]
      rfl
  · have := hx k
    rw [hchange] at this
    linarith
  · have := hshort y fun k => by
      rw [hchange, hy]
      ring
    unfold Newton.lengthSq at this
    rw [hgates] at this
    exact Real.sqrt_le_sqrt this

/-- The device as it looks to a user who does not know of the limits. -/
def Setup.behind (S : Setup n m) (src : Volt (Fin n) → Volt (Fin n)) (app : Vec n → Vec n) : Setup n m :=
  { S with response := fun k v => S.response k (app v), outs := fun x => S.outs (src x) }

theorem behind_sound {S : Setup n m} (hS : S.Sound) {src : Volt (Fin n) → Volt (Fin n)} {app : Vec n → Vec n}
    (happ : ∀ q, src (volts q) = volts (app q)) : (S.behind src app).Sound :=
  ⟨hS.gates_nodup, hS.gates_all, hS.names, hS.desired, hS.scale, hS.tolerance, hS.nonempty, fun v => by
    obtain ⟨y, hy, hev⟩ := hS.evaluators (app v)
    refine ⟨y, hy, ?_⟩
    have : (S.behind src app).outs (fun i => some (v i)) = S.outs (volts (app v)) := by
      change S.outs (src (volts v)) = _
      rw [happ]
    rw [this]
    exact hev⟩

theorem slopes_independent {S : Setup n m} (hS : S.Valid) :
    LinearIndependent ℝ (fun k i => S.grad k i / S.scale k : Fin m → Fin n → ℝ) := by
  have := hS.independent.units_smul (fun k => Units.mk0 (S.scale k)⁻¹ (inv_ne_zero (hS.scale k).2))
  convert this using 1
  funext k i
  simp [Units.smul_def]
  ring

/-- One Newton step: its product with the way that is left is the square of its length, and it has at least the length `s`
unless the set points are met. -/
theorem told_step {S : Setup n m} (hS : S.Valid) {μ : Val × Int} {orth : Orth n}
    {lstsq : Newton.Lstsq (Fin n)} (hl : Newton.LstsqSpec lstsq) {src : Volt (Fin n) → Volt (Fin n)}
    {app : Vec n → Vec n} (happ : ∀ q, src (volts q) = volts (app q))
    {z : Vec n} (hz : ∀ k, S.scaled k z = S.desired k) {s : ℝ}
    (hstep : ∀ k tol, (S.row k).tolerance = some tol → len (fun i => S.grad k i / S.scale k) * s ≤ tol)
    {E : Fin m → FD n} (hdone : ∀ k, Done (fun i => S.grad k i / S.scale k) (E k)) {q : Vec n}
    {t : OneTuner (FD n) n} (h : At (S.behind src app) μ E q t) :
    ∃ x : Vec n, Newton.suggest (fdI orth) lstsq [] t.solver =
        ({ t.solver with ests := List.ofFn E }, .ok fun i => some (some ((q + x) i))) ∧
      ∑ i, x i * (z i - app q i) = len x ^ 2 ∧ (¬ SetPointsMet S (app q) → s ≤ len x) := by
  obtain ⟨x, hsug, hx, hmin⟩ := shortest_suggestion (behind_sound hS.toSound happ) hl h (I := fdI orth)
    (fun k tj => (hdone k).silent tj) (fun k => by
      obtain ⟨C, hC⟩ := (hdone k).est
      simp [fdI, hC]) (slopes_independent hS)
  have hx' : ∀ k, ∑ i, S.grad k i / S.scale k * x i = S.desired k - S.scaled k (app q) := hx
  have hway : ∀ k, ∑ i, S.grad k i / S.scale k * (z - app q : Vec n) i = S.desired k - S.scaled k (app q) := by
    intro k
    rw [← hz k, (Setup.scaled_affine hS.affine k).sub z (app q)]
  refine ⟨x, hsug, ?_, ?_⟩
  · have hpy := shortest_step (q := 0) (x := x) (z := z - app q)
      (A := fun y => ∀ k, ∑ i, S.grad k i / S.scale k * y i = S.desired k - S.scaled k (app q))
      (by simpa using hx') hway (fun a b ha hb r k => by
        have e : ∑ i, S.grad k i / S.scale k * (a + r • (b - a) : Vec n) i =
            ∑ i, S.grad k i / S.scale k * a i +
              r * (∑ i, S.grad k i / S.scale k * b i - ∑ i, S.grad k i / S.scale k * a i) := by
          rw [← Finset.sum_sub_distrib, Finset.mul_sum, ← Finset.sum_add_distrib]
          refine Finset.sum_congr rfl fun i _ => ?_
          simp only [Pi.add_apply, Pi.sub_apply, Pi.smul_apply, smul_eq_mul]
          ring
        rw [e, ha k, hb k]
        ring) (fun y hy => by rw [sub_zero]; exact hmin y hy)
    have e : len (0 + x - (z - app q)) ^ 2 = len x ^ 2 + len (0 - (z - app q)) ^ 2 - 2 * ∑ i, x i * (z i - app q i) := by
      rw [len_sq, len_sq, len_sq, Finset.mul_sum, ← Finset.sum_add_distrib, ← Finset.sum_sub_distrib]
      refine Finset.sum_congr rfl fun i _ => ?_
      simp only [Pi.add_apply, Pi.sub_apply, Pi.zero_apply]
      ring
    rw [e] at hpy
    linarith
  · intro hnot
    by_contra hlt
    rw [not_le] at hlt
    apply hnot
    intro k tol hk
    change |S.desired k - S.scaled k (app q)| < tol
    rw [← hx' k]
    have h1 := abs_product_le (fun i => S.grad k i / S.scale k) x
    have h2 := hstep k tol hk
    have h3 := hS.tolerance k tol hk
    rcases (len_nonneg fun i => S.grad k i / S.scale k).lt_or_eq with h4 | h4
    · have := mul_lt_mul_of_pos_left hlt h4
      linarith
    · rw [← h4, zero_mul] at h1
      linarith

/-- When the gradients are known, each Newton step gains the square of its length, although the voltages that are told
may be far from those that are applied. -/
theorem told_newton {S : Setup n m} (hS : S.Valid) {μ : Val × Int} (hμ : μ.1 = none) {orth : Orth n}
    {lstsq : Newton.Lstsq (Fin n)} (hl : Newton.LstsqSpec lstsq) {src : Volt (Fin n) → Volt (Fin n)}
    {A : Vec n → Prop} {app : Vec n → Vec n} (happ : ∀ q, src (volts q) = volts (app q)) (happA : ∀ q, A (app q))
    (hobt : ∀ q w, A w → ∑ i, (q i - app q i) * (w i - app q i) ≤ 0)
    {z : Vec n} (hA : A z) (hz : ∀ k, S.scaled k z = S.desired k) {s : ℝ} (hs : 0 < s)
    (hstep : ∀ k tol, (S.row k).tolerance = some tol → len (fun i => S.grad k i / S.scale k) * s ≤ tol)
    (b : Vec n) (E : Fin m → FD n) (hdone : ∀ k, Done (fun i => S.grad k i / S.scale k) (E k)) :
    ∀ (N : Nat) (q : Vec n) (t : OneTuner (FD n) n), At (S.behind src app) μ E q t → ¬ SetPointsMet S (app q) →
      len (b - z) ^ 2 - gained b z q (app q) < N * s ^ 2 →
      CompletesWithin (S.behind src app) (fdI orth) lstsq (3 * N) ⟨t, volts q, 0, true, none⟩
  | 0, q, t, _, _, hN => by
    exfalso
    have := gained_le (b := b) (hobt q z hA)
    simp at hN
    linarith
  | N + 1, q, t, h, hnot, hN => by
    obtain ⟨x, hsug, hx, hlong⟩ := told_step hS (orth := orth) hl happ hz hstep hdone h
    obtain ⟨t₂, hnext, hbase₂⟩ := suggestion (E' := E) (q' := q + x) h (by rw [hμ]; simp) hsug
    rw [show 3 * (N + 1) = 3 + 3 * N by ring]
    refine cycle_or (behind_sound hS.toSound happ) hnext hbase₂ (fun k y _ => ⟨E k, (hdone k).keeps _ _ _⟩) (3 * N) ?_
    intro y t'' _ hnot' hAt
    have hE : (fun k => ((fdI orth).update (volts (q + x)) (some ((S.behind src app).scaled k (q + x))) (some (y k))
        (E k)).1) = E := by
      funext k
      exact congrArg Prod.fst ((hdone k).keeps _ _ _)
    rw [hE] at hAt
    refine told_newton hS hμ hl happ happA hobt hA hz hs hstep b E hdone N (q + x) t'' hAt hnot' ?_
    have h1 := gained_step (b := b) hx (hobt q _ (happA (q + x)))
    have h2 := pow_le_pow_left₀ hs.le (hlong hnot) 2
    push_cast at hN
    linarith

end Qtune.EndToEnd
