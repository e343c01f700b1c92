import Verif.History.Spec
import Mathlib.Data.List.Basic
import Mathlib.Data.List.Infix
import Mathlib.Data.List.TakeWhile

/-!
# C62: `get_gradients`
-/

namespace Qtune.History

theorem gateName_iff {g : Name} : GateName g ↔ g ≠ [] ∧ ∀ c ∈ g, wordOrSpace c = true := by
  simp only [GateName, wordOrSpace, Bool.or_eq_true, beq_iff_eq, or_assoc]

theorem matchAt_spec {p t g : Name} (h : matchAt p t = some g) :
    GateName g ∧ ∃ post, t = p ++ '#' :: (g ++ "#grad".toList ++ post) := by
  unfold matchAt at h
  split at h
  · rename_i h1
    obtain ⟨rest, h1⟩ := List.isPrefixOf_iff_prefix.mp h1
    dsimp only at h
    split at h
    · rename_i h2
      cases Option.some.inj h
      have hd : t.drop (p.length + 1) = rest := by
        rw [← h1]
        simp
      rw [hd] at h2 ⊢
      obtain ⟨h2, h3⟩ := h2
      obtain ⟨post, h3⟩ := List.isPrefixOf_iff_prefix.mp h3
      refine ⟨gateName_iff.2 ⟨h2, fun c hc => List.mem_takeWhile_imp hc⟩, post, ?_⟩
      rw [List.append_assoc, h3, List.takeWhile_append_dropWhile, ← h1]
      simp
    · cases h
  · cases h

theorem matchAt_gradient {p g : Name} (hg : GateName g) : matchAt p (gradientName p g) = some g := by
  unfold matchAt gradientName
  have h1 : (p ++ ['#']).isPrefixOf (p ++ '#' :: (g ++ "#grad".toList)) = true :=
    List.isPrefixOf_iff_prefix.mpr ⟨g ++ "#grad".toList, by simp⟩
  rw [if_pos h1]
  have hd : (p ++ '#' :: (g ++ "#grad".toList)).drop (p.length + 1) = g ++ "#grad".toList := by
    have : p ++ '#' :: (g ++ "#grad".toList) = (p ++ ['#']) ++ (g ++ "#grad".toList) := by simp
    rw [this, List.drop_append_of_le_length (by simp)]
    simp
  have hh : wordOrSpace '#' = false := by decide
  have ht : (g ++ "#grad".toList).takeWhile wordOrSpace = g := by
    rw [List.takeWhile_append_of_pos (gateName_iff.1 hg).2]
    show g ++ List.takeWhile wordOrSpace ('#' :: _) = g
    rw [List.takeWhile_cons_of_neg (by simp [hh])]
    simp
  have hw : (g ++ "#grad".toList).dropWhile wordOrSpace = "#grad".toList := by
    rw [List.dropWhile_append_of_pos (gateName_iff.1 hg).2]
    show List.dropWhile wordOrSpace ('#' :: _) = _
    rw [List.dropWhile_cons_of_neg (by simp [hh])]
    rfl
  dsimp only
  rw [hd, ht, hw, if_pos ⟨hg.1, by decide⟩]

theorem search_spec {p c g : Name} (h : search p c = some g) :
    GateName g ∧ ∃ pre post, c = pre ++ (p ++ '#' :: (g ++ "#grad".toList ++ post)) := by
  unfold search at h
  obtain ⟨t, ht, hm⟩ := List.exists_of_findSome?_eq_some h
  obtain ⟨pre, hpre⟩ := (List.mem_tails _ _).mp ht
  obtain ⟨h1, post, h2⟩ := matchAt_spec hm
  exact ⟨h1, pre, post, by rw [← hpre, ← h2]⟩

theorem hash_notMem {g : Name} (hg : GateName g) : '#' ∉ g := fun h => by
  have := (gateName_iff.1 hg).2 _ h
  revert this; decide

/-- The text before the first `#`. -/
theorem split_hash {x y x' y' : Name} (hx : '#' ∉ x) (hx' : '#' ∉ x') (h : x ++ '#' :: y = x' ++ '#' :: y') :
    x = x' ∧ y = y' := by
  induction x generalizing x' with
  | nil =>
    cases x' with
    | nil => exact ⟨rfl, by simpa using h⟩
    | cons c x' =>
      simp at h hx'
      exact absurd h.1 hx'.1
  | cons c x ih =>
    cases x' with
    | nil =>
      simp at h hx
      exact absurd h.1.symm hx.1
    | cons d x' =>
      simp only [List.cons_append, List.cons.injEq] at h
      obtain ⟨rfl, h⟩ := h
      obtain ⟨rfl, rfl⟩ := ih (fun h => hx (List.mem_cons_of_mem _ h)) (fun h => hx' (List.mem_cons_of_mem _ h)) h
      exact ⟨rfl, rfl⟩

/-- A match after the text `x` without `#`: it begins there, or after the next `#`. -/
theorem split_match {x y pre p z : Name} (hx : '#' ∉ x) (hp : '#' ∉ p)
    (h : x ++ '#' :: y = pre ++ (p ++ '#' :: z)) :
    (x = pre ++ p ∧ y = z) ∨ ∃ pre', y = pre' ++ (p ++ '#' :: z) := by
  by_cases hpre : '#' ∈ pre
  · obtain ⟨a, b, rfl, ha⟩ := List.eq_append_cons_of_mem hpre
    rw [List.append_assoc, List.cons_append] at h
    exact .inr ⟨b, (split_hash hx ha h).2⟩
  · have : '#' ∉ pre ++ p := by simp [hpre, hp]
    rw [← List.append_assoc] at h
    exact .inl (split_hash hx this h)

/-- C62 (partial): for names of parameters without `#` none of which ends with the name `p`, and gates whose names
consist of letters, digits, underscores and spaces and do not begin with `grad`, `get_gradients(p)` returns exactly
the gradient columns of `p`, under the names of the gates.  Missing: other names, see `get_gradients_refuted`. -/
theorem get_gradients_partial {params gates : List Name} {p : Name} (hp : p ∈ params)
    (hparams : ∀ q ∈ params, '#' ∉ q) (hsuffix : ∀ q ∈ params, p <:+ q → q = p)
    (hgates : ∀ g ∈ gates, GateName g ∧ ¬ "grad".toList <+: g)
    {cols : List Name} (hcols : ∀ c ∈ cols, Column params gates c) (g c : Name) :
    (g, c) ∈ getGradients p cols ↔ c ∈ cols ∧ g ∈ gates ∧ c = gradientName p g := by
  have hph := hparams p hp
  have key : ∀ c, Column params gates c → ∀ g, search p c = some g → g ∈ gates ∧ c = gradientName p g := by
    intro c hc g hs
    obtain ⟨hg, pre, post, heq⟩ := search_spec hs
    have hgh := hash_notMem hg
    -- a text without `#` does not match
    have nohash : ∀ c, '#' ∉ c → ¬ ∃ pre z, c = pre ++ (p ++ '#' :: z) := by
      rintro c hc ⟨pre, z, rfl⟩
      simp at hc
    cases hc with
    | gate hm => exact absurd ⟨_, _, heq⟩ (nohash _ (hash_notMem (hgates _ hm).1))
    | parameter hm => exact absurd ⟨_, _, heq⟩ (nohash _ (hparams _ hm))
    | @variance q hm =>
      have heq : q ++ '#' :: "var".toList = _ := heq
      rcases split_match (hparams _ hm) hph heq with ⟨-, h⟩ | ⟨_, h⟩
      · have : '#' ∈ "var".toList := by rw [h]; simp
        exact absurd this (by decide)
      · exact absurd ⟨_, _, h⟩ (nohash _ (by decide))
    | @gradient q g' hm hm' =>
      have hg' := hash_notMem (hgates _ hm').1
      rcases split_match (hparams _ hm) hph heq with ⟨h1, h⟩ | ⟨_, h⟩
      · have := hsuffix q hm ⟨pre, h1.symm⟩
        subst this
        have h : g' ++ '#' :: "grad".toList = g ++ '#' :: ("grad".toList ++ post) := by
          rw [show g' ++ '#' :: "grad".toList = g' ++ "#grad".toList from rfl, h]
          simp
        obtain ⟨rfl, -⟩ := split_hash hg' hgh h
        exact ⟨hm', rfl⟩
      · have h : g' ++ '#' :: "grad".toList = _ := h
        rcases split_match hg' hph h with ⟨-, h⟩ | ⟨_, h⟩
        · have : '#' ∈ "grad".toList := by rw [h]; simp
          exact absurd this (by decide)
        · exact absurd ⟨_, _, h⟩ (nohash _ (by decide))
    | @covariance q g₁ g₂ hm hm₁ hm₂ =>
      have hg₁ := hash_notMem (hgates _ hm₁).1
      have hg₂ := hash_notMem (hgates _ hm₂).1
      have cov : ∀ z, g₂ ++ '#' :: "cov".toList ≠ "grad".toList ++ z := by
        intro z h
        rcases List.append_eq_append_iff.mp h with ⟨a, h1, h2⟩ | ⟨a, h1, -⟩
        · cases a with
          | nil => exact (hgates _ hm₂).2 ⟨[], by simpa using h1⟩
          | cons d a =>
            simp only [List.cons_append, List.cons.injEq] at h2
            have : '#' ∈ "grad".toList := by rw [h1, ← h2.1]; simp
            exact absurd this (by decide)
        · exact (hgates _ hm₂).2 ⟨a, h1.symm⟩
      rcases split_match (hparams _ hm) hph heq with ⟨-, h⟩ | ⟨_, h⟩
      · have h : g₁ ++ '#' :: (g₂ ++ '#' :: "cov".toList) = g ++ '#' :: ("grad".toList ++ post) := by
          rw [show g₁ ++ '#' :: (g₂ ++ '#' :: "cov".toList) = g₁ ++ '#' :: (g₂ ++ "#cov".toList) from rfl, h]
          simp
        exact absurd (split_hash hg₁ hgh h).2 (cov _)
      · rcases split_match hg₁ hph h with ⟨-, h⟩ | ⟨_, h⟩
        · have h : g₂ ++ '#' :: "cov".toList = g ++ '#' :: ("grad".toList ++ post) := by
            rw [show g₂ ++ '#' :: "cov".toList = g₂ ++ "#cov".toList from rfl, h]
            simp
          have := (split_hash hg₂ hgh h).2
          simp at this
        · have h : g₂ ++ '#' :: "cov".toList = _ := h
          rcases split_match hg₂ hph h with ⟨-, h⟩ | ⟨_, h⟩
          · have : '#' ∈ "cov".toList := by rw [h]; simp
            exact absurd this (by decide)
          · exact absurd ⟨_, _, h⟩ (nohash _ (by decide))
  unfold getGradients
  rw [List.mem_filterMap]
  constructor
  · rintro ⟨c', hc', h⟩
    cases hs : search p c' with
    | none => rw [hs] at h; cases h
    | some g' =>
      rw [hs] at h
      cases h
      obtain ⟨h1, h2⟩ := key _ (hcols _ hc') _ hs
      exact ⟨hc', h1, h2⟩
  · rintro ⟨hc, hg, rfl⟩
    refine ⟨_, hc, ?_⟩
    have hm := matchAt_gradient (p := p) (hgates g hg).1
    have hsome : (search p (gradientName p g)).isSome := by
      unfold search
      rw [List.findSome?_isSome_iff]
      exact ⟨gradientName p g, (List.mem_tails _ _).mpr (List.suffix_refl _), by rw [hm]; rfl⟩
    obtain ⟨g', hs⟩ := Option.isSome_iff_exists.mp hsome
    have h2 := (key _ (.gradient hp hg) _ hs).2
    have : g = g' := by
      unfold gradientName at h2
      simpa using h2
    rw [hs, this]
    rfl

/-- Two parameters and two gates that meet the hypotheses. -/
example : getGradients "temperature".toList
    [gradientName "temperature".toList "gate A".toList, gradientName "noise".toList "gate A".toList,
      covarianceName "temperature".toList "gate A".toList "B".toList] =
    [("gate A".toList, gradientName "temperature".toList "gate A".toList)] := by decide

/-- C62 is false: the gradients of the parameter `RFA` are returned for the parameter `A`, and a covariance is
returned if a gate's name begins with `grad`. -/
theorem get_gradients_refuted :
    (∃ params gates cols : List Name, ∃ p ∈ params, ∃ q ∈ params, ∃ g ∈ gates,
      (∀ c ∈ cols, Column params gates c) ∧ q ≠ p ∧ (g, gradientName q g) ∈ getGradients p cols) ∧
    (∃ params gates cols : List Name, ∃ p ∈ params, ∃ g₁ ∈ gates, ∃ g₂ ∈ gates,
      (∀ c ∈ cols, Column params gates c) ∧ (g₁, covarianceName p g₁ g₂) ∈ getGradients p cols) := by
  refine ⟨⟨["A".toList, "RFA".toList], ["T".toList], [gradientName "RFA".toList "T".toList], "A".toList, by simp,
      "RFA".toList, by simp, "T".toList, by simp, ?_, by decide, by decide⟩,
    ⟨["A".toList], ["T".toList, "grad".toList], [covarianceName "A".toList "T".toList "grad".toList], "A".toList,
      by simp, "T".toList, by simp, "grad".toList, by simp, ?_, by decide⟩⟩
  · intro c hc
    rw [List.mem_singleton] at hc
    subst hc
    exact .gradient (by simp) (by simp)
  · intro c hc
    rw [List.mem_singleton] at hc
    subst hc
    exact .covariance (by simp) (by simp) (by simp)

end Qtune.History
