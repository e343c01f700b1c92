import Verif.EndToEnd.LimitsSpec
import Verif.EndToEnd.SourceRun

/-! # Runs with a source that has limits -/

namespace Qtune.EndToEnd

open Qtune.Tuner Qtune.Gradient Qtune.Autotuner

variable {n m : Nat}

/-- Limits gate by gate are limits in the sense of `Limited`. -/
theorem clip_limited {lo hi : Vec n} (h : ∀ i, lo i ≤ hi i) : Limited (clip lo hi) (Between lo hi) where
  inside := fun q hq => by
    funext i
    simp only [clip, volts, Option.map_some]
    rw [min_eq_right (hq i).2, max_eq_right (hq i).1]
  nearest := fun q => by
    refine ⟨fun i => max (lo i) (min (hi i) (q i)), rfl, fun i => ⟨le_max_left _ _, max_le (h i) (min_le_left _ _)⟩, ?_⟩
    intro z hz
    refine len_le_of_sq (len_nonneg _) ?_
    rw [len_sq]
    refine Finset.sum_le_sum fun i _ => ?_
    apply sq_le_sq.2
    simp only [Pi.sub_apply]
    obtain ⟨h1, h2⟩ := hz i
    rcases le_total (q i) (lo i) with h3 | h3
    · rw [min_eq_right (h3.trans (h i)), max_eq_left h3, abs_of_nonpos (by linarith), abs_of_nonpos (by linarith)]
      linarith
    · rcases le_total (q i) (hi i) with h4 | h4
      · rw [min_eq_right h4, max_eq_right h3]
      · rw [min_eq_left h4, max_eq_right (h i), abs_of_nonneg (by linarith), abs_of_nonneg (by linarith)]
        linarith

/-- The shortest step to an affine set is orthogonal to it. -/
theorem shortest_step {A : Vec n → Prop} {q x z : Vec n} (hx : A (q + x)) (hz : A z)
    (hline : ∀ a b : Vec n, A a → A b → ∀ t : ℝ, A (a + t • (b - a)))
    (hmin : ∀ y, A y → len x ≤ len (y - q)) : len (q + x - z) ^ 2 = len (q - z) ^ 2 - len x ^ 2 := by
  set w : Vec n := z - (q + x) with hw
  have key : ∀ t : ℝ, len x ^ 2 ≤ len (x + t • w) ^ 2 := by
    intro t
    have h1 := hmin _ (hline _ _ hx hz t)
    have : q + x + t • (z - (q + x)) - q = x + t • w := by rw [← hw]; abel
    rw [this] at h1
    exact pow_le_pow_left₀ (len_nonneg _) h1 2
  have hexp : ∀ t : ℝ, len (x + t • w) ^ 2 = len x ^ 2 + 2 * t * (∑ i, x i * w i) + t ^ 2 * len w ^ 2 := by
    intro t
    rw [len_sq, len_sq, len_sq, Finset.mul_sum, Finset.mul_sum, ← Finset.sum_add_distrib, ← Finset.sum_add_distrib]
    refine Finset.sum_congr rfl fun i _ => ?_
    simp only [Pi.add_apply, Pi.smul_apply, smul_eq_mul]
    ring
  have hzero : ∑ i, x i * w i = 0 := by
    set a := ∑ i, x i * w i
    set b := len w ^ 2
    have hb : 0 ≤ b := sq_nonneg _
    have h1 : ∀ t : ℝ, 0 ≤ 2 * t * a + t ^ 2 * b := by
      intro t
      have := key t
      rw [hexp] at this
      linarith
    have h2 := h1 (-a / (b + 1))
    have hb1 : 0 < b + 1 := by linarith
    have h3 : 2 * (-a / (b + 1)) * a + (-a / (b + 1)) ^ 2 * b = - (a ^ 2 * (b + 2)) / (b + 1) ^ 2 := by
      field_simp
      ring
    rw [h3, neg_div, neg_nonneg] at h2
    have h4 : 0 ≤ a ^ 2 * (b + 2) / (b + 1) ^ 2 := by positivity
    have h5 : a ^ 2 * (b + 2) / (b + 1) ^ 2 = 0 := le_antisymm h2 h4
    rw [div_eq_zero_iff] at h5
    rcases h5 with h5 | h5
    · rcases mul_eq_zero.1 h5 with h6 | h6
      · exact pow_eq_zero_iff (two_ne_zero) |>.1 h6
      · linarith
    · exact absurd h5 (by positivity)
  have h1 := hexp 1
  have h2 : x + (1 : ℝ) • w = -(q - z) := by rw [hw, one_smul]; abel
  have h3 : len (-(q - z)) = len (q - z) := by rw [neg_sub, len_sub_comm]
  have h4 : len w = len (q + x - z) := by rw [hw, len_sub_comm]
  rw [h2, h3, hzero, h4] at h1
  linarith

/-- The points that meet the set points exactly are an affine set. -/
theorem exact_line {S : Setup n m} (h : S.Affine) (a b : Vec n) (ha : ∀ k, S.scaled k a = S.desired k)
    (hb : ∀ k, S.scaled k b = S.desired k) (t : ℝ) : ∀ k, S.scaled k (a + t • (b - a)) = S.desired k := by
  intro k
  have h1 := (Setup.scaled_affine h k).sub (a + t • (b - a)) a
  have h2 := (Setup.scaled_affine h k).sub b a
  rw [hb, ha, sub_self] at h2
  have : ∑ i, S.grad k i / S.scale k * (a + t • (b - a) - a : Vec n) i = t * ∑ i, S.grad k i / S.scale k * (b - a : Vec n) i := by
    rw [Finset.mul_sum]
    refine Finset.sum_congr rfl fun i _ => ?_
    simp only [Pi.add_apply, Pi.sub_apply, Pi.smul_apply, smul_eq_mul]
    ring
  rw [this, ← h2, mul_zero, sub_eq_zero] at h1
  rw [h1, ha]

/-- Collecting measurements within the limits. -/
theorem limited_collect {S : Setup n m} (hS : S.Sound) {μ : Val × Int} {B : ℝ} (hμ : ∀ M, μ.1 = some M → 2 * B ≤ M) {orth : Orth n}
    (ho : OrthSpec orth) {lstsq : Newton.Lstsq (Fin n)} {src : Volt (Fin n) → Volt (Fin n)} {A : Vec n → Prop}
    (hsrc : Limited src A) (c : Vec n) (hroom : ∀ x, len x ≤ B → A (c + x)) (K : Nat)
    (hK : ∀ (E : Fin m → FD n) (q : Vec n) (v : Volt (Fin n)) (t : OneTuner (FD n) n) (d : Fin n → Vec n)
      (G : Fin m → Vec n), At S μ E q t → LinearIndependent ℝ d → Secants S c d G E → len (q - c) ≤ B →
      A q → ¬ SetPointsMet S q → CompletesSourced S (fdI orth) lstsq src true K ⟨t, v, 0, true, none⟩) :
    ∀ (r k : Nat) (_ : k + r + 1 = n) (d : Fin k → Vec n) (_ : LinearIndependent ℝ d)
      (E : Fin m → FD n) (q : Vec n) (v : Volt (Fin n)) (t : OneTuner (FD n) n), At S μ E q t → len (q - c) ≤ B →
      (∀ j, Col B none (S.scaled j) c d (E j)) →
      CompletesSourced S (fdI orth) lstsq src true (3 * (r + 1) + K) ⟨t, v, 0, true, none⟩ := by
  intro r
  induction r with
  | zero =>
    intro k hk d hd E q v t h hq hcol
    obtain ⟨x, E', hli, -, hlen, hcol', t', hnext, hbase⟩ :=
      request_phase hS ho (lstsq := lstsq) h hcol (by omega) hd (fun _ hh => by cases hh) hμ hq
    have hp := hsrc.inside _ (hroom x hlen)
    refine sourced_cycle_or hS hp hnext hbase ?_ K ?_
    · intro j y _
      obtain ⟨e', -, he', -⟩ := (hcol' j).last (by omega) x y hli
      exact ⟨e', he'⟩
    · intro y t'' _ hnot hAt
      have hlast : ∀ j, ∃ g, Done g ((fdI orth).update (volts (c + x)) (some (S.scaled j (c + x)))
          (some (y j)) (E' j)).1 ∧ ∀ a, ∑ i, g i * (Fin.snoc d x : Fin (k + 1) → Vec n) a i =
            S.scaled j (c + (Fin.snoc d x : Fin (k + 1) → Vec n) a) - S.scaled j c := by
        intro j
        obtain ⟨e', g, he', hdone, hg⟩ := (hcol' j).last (by omega) x (y j) hli
        have he : (fdI orth).update (volts (c + x)) (some (S.scaled j (c + x))) (some (y j)) (E' j) = _ := he'
        rw [he]
        exact ⟨g, hdone, hg⟩
      choose G hG using hlast
      subst hk
      exact hK _ _ _ _ _ G hAt hli hG (by rwa [add_sub_cancel_left]) (hroom x hlen) hnot
  | succ r ih =>
    intro k hk d hd E q v t h hq hcol
    obtain ⟨x, E', hli, -, hlen, hcol', t', hnext, hbase⟩ :=
      request_phase hS ho (lstsq := lstsq) h hcol (by omega) hd (fun _ hh => by cases hh) hμ hq
    have hp := hsrc.inside _ (hroom x hlen)
    have := sourced_cycle_or hS (v := v) hp hnext hbase (fun j y _ => by
      obtain ⟨e', he', -⟩ := (hcol' j).next (by omega) x y
      exact ⟨e', he'⟩) (3 * (r + 1) + K) (fun y t'' _ _ hAt => by
      refine ih (k + 1) (by omega) _ hli _ _ _ _ hAt (by rwa [add_sub_cancel_left]) (fun j => ?_)
      obtain ⟨e', he', hc⟩ := (hcol' j).next (by omega) x (y j)
      have he : (fdI orth).update (volts (c + x)) (some (S.scaled j (c + x))) (some (y j)) (E' j) = _ := he'
      rw [he]
      exact hc)
    rw [show 3 * (r + 1 + 1) + K = 3 + (3 * (r + 1) + K) by ring]
    exact this

end Qtune.EndToEnd
