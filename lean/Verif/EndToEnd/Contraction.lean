import Verif.EndToEnd.Lemmas
import Mathlib.LinearAlgebra.FiniteDimensional.Lemmas
import Mathlib.LinearAlgebra.Matrix.ToLin

/-! # Linear systems with slightly wrong coefficients -/

namespace Qtune.EndToEnd

variable {n m : Nat}

/-- The combination of the rows of `G` with the coefficients `x`. -/
def comb (G : Fin m → Fin n → ℝ) (x : Fin m → ℝ) : Fin n → ℝ := fun i => ∑ k, x k * G k i

/-- The rows of `G` applied to a step. -/
def act (G : Fin m → Fin n → ℝ) (s : Fin n → ℝ) : Fin m → ℝ := fun k => ∑ i, G k i * s i

/-- Square root of the sum of the squares of all entries. -/
noncomputable def frob (G : Fin m → Fin n → ℝ) : ℝ := Real.sqrt (∑ k, ∑ i, G k i ^ 2)

theorem len_sq (x : Fin n → ℝ) : len x ^ 2 = ∑ i, x i ^ 2 :=
  Real.sq_sqrt (Finset.sum_nonneg fun _ _ => sq_nonneg _)

theorem frob_sq (G : Fin m → Fin n → ℝ) : frob G ^ 2 = ∑ k, ∑ i, G k i ^ 2 :=
  Real.sq_sqrt (Finset.sum_nonneg fun _ _ => Finset.sum_nonneg fun _ _ => sq_nonneg _)

theorem frob_nonneg (G : Fin m → Fin n → ℝ) : 0 ≤ frob G := Real.sqrt_nonneg _

theorem len_le_of_sq {x : Fin n → ℝ} {a : ℝ} (ha : 0 ≤ a) (h : ∑ i, x i ^ 2 ≤ a ^ 2) : len x ≤ a := by
  rw [← len_sq] at h
  exact (le_abs_self _).trans (abs_le_of_sq_le_sq h ha)

theorem abs_le_len (x : Fin n → ℝ) (i : Fin n) : |x i| ≤ len x := by
  rw [← Real.sqrt_sq_eq_abs]
  exact Real.sqrt_le_sqrt (Finset.single_le_sum (f := fun i => x i ^ 2) (fun _ _ => sq_nonneg _)
    (Finset.mem_univ i))

theorem dot_le (x y : Fin n → ℝ) : ∑ i, x i * y i ≤ len x * len y := by
  have h := Finset.sum_mul_sq_le_sq_mul_sq Finset.univ x y
  rw [← len_sq, ← len_sq, ← mul_pow] at h
  exact (le_abs_self _).trans (abs_le_of_sq_le_sq h (mul_nonneg (len_nonneg x) (len_nonneg y)))

theorem len_eq_zero {x : Fin n → ℝ} (h : len x = 0) : x = 0 := by
  funext i
  have := abs_le_len x i
  rw [h] at this
  exact abs_eq_zero.1 (le_antisymm this (abs_nonneg _))

theorem act_le (G : Fin m → Fin n → ℝ) (s : Fin n → ℝ) : len (act G s) ≤ frob G * len s := by
  refine len_le_of_sq (mul_nonneg (frob_nonneg G) (len_nonneg s)) ?_
  rw [mul_pow, frob_sq, len_sq, Finset.sum_mul]
  exact Finset.sum_le_sum fun k _ => Finset.sum_mul_sq_le_sq_mul_sq _ _ _

theorem comb_le (G : Fin m → Fin n → ℝ) (x : Fin m → ℝ) : len (comb G x) ≤ frob G * len x := by
  refine len_le_of_sq (mul_nonneg (frob_nonneg G) (len_nonneg x)) ?_
  rw [mul_pow, frob_sq, len_sq, Finset.sum_comm, Finset.sum_mul]
  refine Finset.sum_le_sum fun i _ => ?_
  rw [mul_comm]
  exact Finset.sum_mul_sq_le_sq_mul_sq _ _ _

/-- Slightly wrong rows are still well conditioned. -/
theorem perturbed {G G' : Fin m → Fin n → ℝ} {σ ρ : ℝ} (hσ : ∀ x, σ * len x ≤ len (comb G x))
    (hρ : frob (G' - G) ≤ ρ) (x : Fin m → ℝ) : (σ - ρ) * len x ≤ len (comb G' x) := by
  have h1 : comb G x = comb G' x + (-1 : ℝ) • comb (G' - G) x := by
    funext i
    simp only [comb, Pi.add_apply, Pi.smul_apply, smul_eq_mul, Finset.mul_sum, ← Finset.sum_add_distrib,
      Pi.sub_apply]
    exact Finset.sum_congr rfl fun k _ => by ring
  have h2 := len_add (comb G' x) ((-1 : ℝ) • comb (G' - G) x)
  rw [← h1, len_smul] at h2
  have h3 := comb_le (G' - G) x
  have h4 := mul_le_mul_of_nonneg_right hρ (len_nonneg x)
  have h5 := hσ x
  norm_num at h2
  linarith

theorem comb_dot (G : Fin m → Fin n → ℝ) (x : Fin m → ℝ) (s : Fin n → ℝ) :
    ∑ i, comb G x i * s i = ∑ k, x k * act G s k := by
  simp only [comb, act, Finset.sum_mul, Finset.mul_sum]
  rw [Finset.sum_comm]
  exact Finset.sum_congr rfl fun k _ => Finset.sum_congr rfl fun i _ => by ring

theorem comb_injective {G : Fin m → Fin n → ℝ} {τ : ℝ} (hτ : 0 < τ) (h : ∀ x, τ * len x ≤ len (comb G x))
    {x : Fin m → ℝ} (hx : comb G x = 0) : x = 0 := by
  have h1 := h x
  rw [hx] at h1
  have h0 : len (0 : Fin n → ℝ) = 0 := by simp [len]
  rw [h0] at h1
  have := len_nonneg x
  exact len_eq_zero (by nlinarith)

theorem rows_independent {G : Fin m → Fin n → ℝ} {τ : ℝ} (hτ : 0 < τ) (h : ∀ x, τ * len x ≤ len (comb G x)) :
    LinearIndependent ℝ G := by
  rw [Fintype.linearIndependent_iff]
  intro x hx k
  have : comb G x = 0 := by
    rw [← hx]
    funext i
    simp [comb, Finset.sum_apply]
  exact congrFun (comb_injective hτ h this) k

/-- A well conditioned system has a short solution. -/
theorem short_solution {G : Fin m → Fin n → ℝ} {τ : ℝ} (hτ : 0 < τ) (h : ∀ x, τ * len x ≤ len (comb G x))
    (b : Fin m → ℝ) : ∃ s, act G s = b ∧ τ * len s ≤ len b := by
  let A : (Fin m → ℝ) →ₗ[ℝ] (Fin m → ℝ) :=
    { toFun := fun z => act G (comb G z)
      map_add' := by
        intro x y
        funext k
        simp only [act, comb, Pi.add_apply, ← Finset.sum_add_distrib, ← mul_add, ← add_mul]
      map_smul' := by
        intro a x
        funext k
        simp only [act, comb, Pi.smul_apply, smul_eq_mul, RingHom.id_apply, Finset.mul_sum]
        exact Finset.sum_congr rfl fun i _ => Finset.sum_congr rfl fun k _ => by ring }
  have hsq : ∀ z, len (comb G z) ^ 2 = ∑ k, z k * act G (comb G z) k := by
    intro z
    rw [← comb_dot, len_sq]
    exact Finset.sum_congr rfl fun i _ => by ring
  have hinj : Function.Injective A := by
    rw [← LinearMap.ker_eq_bot, LinearMap.ker_eq_bot']
    intro z hz
    have hz' : act G (comb G z) = 0 := hz
    have := hsq z
    rw [hz'] at this
    simp only [Pi.zero_apply, mul_zero, Finset.sum_const_zero] at this
    exact comb_injective hτ h (len_eq_zero (pow_eq_zero_iff (two_ne_zero) |>.1 this))
  obtain ⟨z, hz⟩ := (LinearMap.injective_iff_surjective.1 hinj) b
  have hz' : act G (comb G z) = b := hz
  refine ⟨comb G z, hz', ?_⟩
  have h1 := hsq z
  rw [hz'] at h1
  have h2 := dot_le z b
  have h3 := h z
  have h4 := len_nonneg b
  have h5 := len_nonneg z
  rcases (len_nonneg (comb G z)).eq_or_lt with h0 | h0
  · rw [← h0, mul_zero]; exact h4
  · have : len (comb G z) * (τ * len (comb G z)) ≤ len (comb G z) * len b := by
      calc len (comb G z) * (τ * len (comb G z)) = τ * len (comb G z) ^ 2 := by ring
        _ ≤ τ * (len z * len b) := by
          rw [h1]; exact mul_le_mul_of_nonneg_left h2 hτ.le
        _ = (τ * len z) * len b := by ring
        _ ≤ _ := mul_le_mul_of_nonneg_right h3 h4
    exact le_of_mul_le_mul_left this h0

end Qtune.EndToEnd
