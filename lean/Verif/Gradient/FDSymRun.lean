import Verif.Gradient.FDSym

/-! # Runs of the symmetric protocol -/

namespace Qtune.Gradient

variable {n : Nat}

/-- Before the last measurement there is no error and no estimate. -/
theorem Sym.unfinished {orth : Orth n} (ho : OrthSpec orth) {gates : List (Fin n)}
    (hnd : gates.Nodup) (hlen : gates.length = n) {f : Vec n → ℝ} {c eps : Vec n} :
    ∀ (m : Nat) (ws : List ℝ), ws.length ≤ m → ∀ {k : Nat} {D : Fin k → Vec n × ℝ × ℝ} {e : FD n},
      Sym gates f c eps D e → 2 * k + ws.length < 2 * n →
      ∃ e', rounds orth gates f c ws e = .ok e' ∧ e'.estimate = none := by
  intro m
  induction m with
  | zero =>
    intro ws hws k D e h _
    obtain rfl := List.length_eq_zero_iff.1 (Nat.le_zero.1 hws)
    exact ⟨e, rfl, h.est⟩
  | succ m ih =>
    intro ws hws k D e h hlt
    match ws, hws, hlt with
    | [], _, _ => exact ⟨e, rfl, h.est⟩
    | [v], _, hlt =>
      simp only [List.length_cons, List.length_nil] at hlt
      obtain ⟨u, e₁, -, -, hr, h₁⟩ := h.first ho hnd (by omega) v
      refine ⟨e₁, ?_, h₁.est⟩
      simp [rounds, hr]
    | v :: w :: ws, hws, hlt =>
      simp only [List.length_cons] at hlt hws
      obtain ⟨u, e₁, -, -, hr, h₁⟩ := h.first ho hnd (by omega) v
      obtain ⟨e₂, h₂, hne, -⟩ := h₁.second (orth := orth) w
      obtain ⟨e₃, h₃, hest⟩ := ih ws (by omega) h₂ (by omega)
      refine ⟨e₃, ?_, hest⟩
      simp only [rounds, hr, hne (by omega)]
      exact h₃

/-- The state in which the gradient is computed. -/
theorem Sym.finish {orth : Orth n} (ho : OrthSpec orth) {gates : List (Fin n)}
    (hnd : gates.Nodup) (hlen : gates.length = n) {f : Vec n → ℝ} {c eps : Vec n}
    (heps : ∀ i, 0 < eps i) :
    ∀ (m k : Nat) (ws : List ℝ) {D : Fin k → Vec n × ℝ × ℝ} {e : FD n},
      Sym gates f c eps D e → k + m + 1 = n → ws.length = 2 * (m + 1) →
      ∃ (D' : Fin n → Vec n × ℝ × ℝ) (e' : FD n), Sym gates f c eps D' e' ∧
        (LinearIndependent ℝ (fun j => (D j).1) → LinearIndependent ℝ (fun j => (D' j).1)) ∧
        ((∃ j, (D j).1 = 0) → ∃ j, (D' j).1 = 0) ∧
        rounds orth gates f c ws e =
          match gradientOf e'.stored with
          | .error err => .error err
          | .ok r => .ok { e' with estimate := some r } := by
  intro m
  induction m with
  | zero =>
    intro k ws D e h hk hws
    match ws, hws with
    | [v, w], _ =>
      obtain ⟨u, e₁, hu, hort, hr, h₁⟩ := h.first ho hnd (by omega) v
      obtain ⟨e₂, h₂, -, heq⟩ := h₁.second (orth := orth) w
      have hkn : k + 1 = n := by omega
      refine ⟨Fin.snoc D (scaled u eps, v, w) ∘ Fin.cast hkn.symm, e₂, ?_, ?_, ?_, ?_⟩
      · subst hkn
        exact h₂
      · intro hli
        have := independent_snoc hli heps hu hort
        have h' : LinearIndependent ℝ (fun j => ((Fin.snoc D (scaled u eps, v, w) :
            Fin (k + 1) → Vec n × ℝ × ℝ) j).1) := by
          convert this using 1
          funext j
          refine Fin.lastCases ?_ (fun j => ?_) j <;> simp
        exact h'.comp _ (Fin.cast_injective _)
      · rintro ⟨j, hj⟩
        exact ⟨Fin.cast hkn j.castSucc, by simpa using hj⟩
      · simp only [rounds, hr, heq hkn]
        cases gradientOf e₂.stored <;> rfl
  | succ m ih =>
    intro k ws D e h hk hws
    match ws, hws with
    | v :: w :: ws, hws =>
      simp only [List.length_cons] at hws
      obtain ⟨u, e₁, hu, hort, hr, h₁⟩ := h.first ho hnd (by omega) v
      obtain ⟨e₂, h₂, hne, -⟩ := h₁.second (orth := orth) w
      obtain ⟨D', e', h', hli, hz, hrun⟩ := ih (k + 1) ws h₂ (by omega) (by omega)
      refine ⟨D', e', h', ?_, ?_, ?_⟩
      · intro hl
        apply hli
        convert independent_snoc hl heps hu hort using 1
        funext j
        refine Fin.lastCases ?_ (fun j => ?_) j <;> simp
      · rintro ⟨j, hj⟩
        exact hz ⟨j.castSucc, by simpa using hj⟩
      · simp only [rounds, hr, hne (by omega)]
        exact hrun

/-- All gates, each once. -/
theorem length_all {gates : List (Fin n)} (hnd : gates.Nodup) (hall : ∀ i, i ∈ gates) :
    gates.length = n := by
  have h1 : gates.toFinset = Finset.univ := by
    ext i
    simp [hall i]
  have h2 := List.toFinset_card_of_nodup hnd
  rw [h1] at h2
  simpa using h2.symm

/-- More vectors on the gates than there are gates are dependent. -/
theorem no_room {orth : Orth n} (ho : OrthSpec orth) {gates : List (Fin n)} (hnd : gates.Nodup)
    {k : Nat} (hk : k = gates.length) {d : Fin k → Vec n} (hd : LinearIndependent ℝ d)
    (hsup : ∀ j i, i ∉ gates → d j i = 0) (vs : List (Vec n))
    (hvs : ∀ j, ∃ a : ℝ, a ≠ 0 ∧ a • d j ∈ vs) : orth gates vs = none := by
  by_contra hne
  obtain ⟨u, hu⟩ := Option.ne_none_iff_exists'.1 hne
  have husup := ho.support _ _ _ hu
  have hort : ∀ j, inner u (d j) = 0 := by
    intro j
    obtain ⟨a, ha, hmem⟩ := hvs j
    have := ho.orthogonal _ _ _ hu _ hmem
    rw [inner_smul_right] at this
    exact (mul_eq_zero.1 this).resolve_left ha
  have hli := independent_snoc hd (eps := fun _ => 1) (fun _ => one_pos) (ho.unit _ _ _ hu) hort
  have hscaled : scaled u (fun _ => 1) = u := by ext i; simp [scaled]
  rw [hscaled] at hli
  classical
  let G : Type := {i // i ∈ gates.toFinset}
  let L : (G → ℝ) →ₗ[ℝ] Vec n :=
    { toFun := fun w i => if h : i ∈ gates.toFinset then w ⟨i, h⟩ else 0
      map_add' := by
        intro x y; ext i
        by_cases h : i ∈ gates.toFinset <;> simp [h, -List.mem_toFinset]
      map_smul' := by
        intro a x; ext i
        by_cases h : i ∈ gates.toFinset <;> simp [h, -List.mem_toFinset] }
  let D : Fin (k + 1) → Vec n := Fin.snoc d u
  have hDsup : ∀ j i, i ∉ gates → D j i = 0 := by
    intro j i hi
    refine Fin.lastCases ?_ (fun j => ?_) j
    · simpa [D] using husup i hi
    · simpa [D] using hsup j i hi
  have hcomp : D = L ∘ fun j (i : G) => D j i.1 := by
    funext j
    ext i
    by_cases h : i ∈ gates.toFinset
    · simp [L, h, -List.mem_toFinset]
    · have : D j i = 0 := hDsup j i (by simpa using h)
      simp [L, h, this, -List.mem_toFinset]
  have hG : LinearIndependent ℝ fun j (i : G) => D j i.1 := by
    apply LinearIndependent.of_comp L
    rw [← hcomp]
    exact hli
  have hc := hG.fintype_card_le_finrank
  rw [Module.finrank_fintype_fun_eq_card, Fintype.card_coe, List.toFinset_card_of_nodup hnd,
    Fintype.card_fin] at hc
  omega

end Qtune.Gradient
