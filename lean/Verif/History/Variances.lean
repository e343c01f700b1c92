import Verif.History.VarianceModel
import Verif.History.Gradients

/-!
# C141: `get_gradient_variances`
-/

namespace Qtune.History

theorem matchVarianceAt_spec {p t g : Name} (h : matchVarianceAt p t = some g) :
    GateName g ∧ ∃ post, t = p ++ '#' :: (g ++ '#' :: (g ++ "#cov".toList ++ post)) := by
  unfold matchVarianceAt at h
  split at h
  · rename_i h1
    obtain ⟨rest, h1⟩ := List.isPrefixOf_iff_prefix.mp h1
    dsimp only at h
    split at h
    · rename_i h2
      cases Option.some.inj h
      have hd : t.drop (p.length + 1) = rest := by
        rw [← h1]
        simp
      rw [hd] at h2 ⊢
      obtain ⟨h2, h3⟩ := h2
      obtain ⟨post, h3⟩ := List.isPrefixOf_iff_prefix.mp h3
      refine ⟨gateName_iff.2 ⟨h2, fun c hc => List.mem_takeWhile_imp hc⟩, post, ?_⟩
      have : rest.takeWhile wordOrSpace ++ '#' :: (rest.takeWhile wordOrSpace ++ "#cov".toList ++ post) = rest := by
        have := List.takeWhile_append_dropWhile (p := wordOrSpace) (l := rest)
        rw [← h3] at this
        simpa using this
      rw [this, ← h1]
      simp
    · cases h
  · cases h

theorem matchVarianceAt_diagonal {p g : Name} (hg : GateName g) : matchVarianceAt p (covarianceName p g g) = some g := by
  unfold matchVarianceAt covarianceName
  have h1 : (p ++ ['#']).isPrefixOf (p ++ '#' :: (g ++ '#' :: (g ++ "#cov".toList))) = true :=
    List.isPrefixOf_iff_prefix.mpr ⟨g ++ '#' :: (g ++ "#cov".toList), by simp⟩
  rw [if_pos h1]
  have hd : (p ++ '#' :: (g ++ '#' :: (g ++ "#cov".toList))).drop (p.length + 1) = g ++ '#' :: (g ++ "#cov".toList) := by
    have : p ++ '#' :: (g ++ '#' :: (g ++ "#cov".toList)) = (p ++ ['#']) ++ (g ++ '#' :: (g ++ "#cov".toList)) := by simp
    rw [this, List.drop_append_of_le_length (by simp)]
    simp
  have hh : wordOrSpace '#' = false := by decide
  have ht : (g ++ '#' :: (g ++ "#cov".toList)).takeWhile wordOrSpace = g := by
    rw [List.takeWhile_append_of_pos (gateName_iff.1 hg).2, List.takeWhile_cons_of_neg (by simp [hh])]
    simp
  have hw : (g ++ '#' :: (g ++ "#cov".toList)).dropWhile wordOrSpace = '#' :: (g ++ "#cov".toList) := by
    rw [List.dropWhile_append_of_pos (gateName_iff.1 hg).2, List.dropWhile_cons_of_neg (by simp [hh])]
  dsimp only
  rw [hd, ht, hw, if_pos ⟨hg.1, List.isPrefixOf_iff_prefix.mpr (List.prefix_refl _)⟩]

theorem searchVariance_spec {p c g : Name} (h : searchVariance p c = some g) :
    GateName g ∧ ∃ pre post, c = pre ++ (p ++ '#' :: (g ++ '#' :: (g ++ "#cov".toList ++ post))) := by
  unfold searchVariance at h
  obtain ⟨t, ht, hm⟩ := List.exists_of_findSome?_eq_some h
  obtain ⟨pre, hpre⟩ := (List.mem_tails _ _).mp ht
  obtain ⟨h1, post, h2⟩ := matchVarianceAt_spec hm
  exact ⟨h1, pre, post, by rw [← hpre, ← h2]⟩

/-- **C141**, part: for names of parameters without `#` none of which ends with the name `p`, and gates whose names
consist of letters, digits, underscores and spaces, `get_gradient_variances(p)` returns exactly the diagonal of the covariance of
`p`, under the names of the gates.  Missing: other names, see `get_gradient_variances_refuted`. -/
theorem get_gradient_variances_partial {params gates : List Name} {p : Name} (hp : p ∈ params)
    (hparams : ∀ q ∈ params, '#' ∉ q) (hsuffix : ∀ q ∈ params, p <:+ q → q = p) (hgates : ∀ g ∈ gates, GateName g)
    {cols : List Name} (hcols : ∀ c ∈ cols, Column params gates c) (g c : Name) :
    (g, c) ∈ getGradientVariances p cols ↔ c ∈ cols ∧ g ∈ gates ∧ c = covarianceName p g g := by
  have hph := hparams p hp
  have zero : ∀ {l : Name}, '#' ∉ l → l.count '#' = 0 := fun h => List.count_eq_zero.2 h
  have key : ∀ c, Column params gates c → ∀ g, searchVariance p c = some g → g ∈ gates ∧ c = covarianceName p g g := by
    intro c hc g hs
    obtain ⟨hg, pre, post, heq⟩ := searchVariance_spec hs
    have hgh := hash_notMem hg
    have hcov : List.count '#' "#cov".toList = 1 := by decide
    have hcount : c.count '#' = pre.count '#' + 3 + post.count '#' := by
      rw [heq]
      simp only [List.count_append, List.count_cons_self, zero hph, zero hgh, hcov]
      omega
    cases hc with
    | gate hm => rw [zero (hash_notMem (hgates _ hm))] at hcount; omega
    | parameter hm => rw [zero (hparams _ hm)] at hcount; omega
    | @variance q hm =>
      have : List.count '#' "#var".toList = 1 := by decide
      simp only [varianceName, List.count_append, zero (hparams _ hm), this] at hcount
      omega
    | @gradient q g' hm hm' =>
      have : List.count '#' "#grad".toList = 1 := by decide
      simp only [gradientName, List.count_append, List.count_cons_self, zero (hparams _ hm), this,
        zero (hash_notMem (hgates _ hm'))] at hcount
      omega
    | @covariance q g₁ g₂ hm hm₁ hm₂ =>
      have hg₁ := hash_notMem (hgates _ hm₁)
      have hg₂ := hash_notMem (hgates _ hm₂)
      simp only [covarianceName, List.count_append, List.count_cons_self, zero (hparams _ hm), hcov, zero hg₁, zero hg₂]
        at hcount
      have hpre : '#' ∉ pre := List.count_eq_zero.1 (by omega)
      have h1 : q ++ '#' :: (g₁ ++ '#' :: (g₂ ++ "#cov".toList)) =
          (pre ++ p) ++ '#' :: (g ++ '#' :: (g ++ "#cov".toList ++ post)) := by
        rw [List.append_assoc]; exact heq
      obtain ⟨h2, h3⟩ := split_hash (hparams _ hm) (by simp [hpre, hph]) h1
      have := hsuffix q hm ⟨pre, h2.symm⟩
      subst this
      obtain ⟨rfl, h4⟩ := split_hash hg₁ hgh h3
      have h5 : g₂ ++ '#' :: "cov".toList = g₁ ++ '#' :: ("cov".toList ++ post) := by
        have : g₂ ++ "#cov".toList = g₁ ++ ("#cov".toList ++ post) := by rw [h4]; simp
        exact this
      obtain ⟨rfl, -⟩ := split_hash hg₂ hg₁ h5
      exact ⟨hm₂, rfl⟩
  unfold getGradientVariances
  rw [List.mem_filterMap]
  constructor
  · rintro ⟨c', hc', h⟩
    cases hs : searchVariance p c' with
    | none => rw [hs] at h; cases h
    | some g' =>
      rw [hs] at h
      cases h
      obtain ⟨h1, h2⟩ := key _ (hcols _ hc') _ hs
      exact ⟨hc', h1, h2⟩
  · rintro ⟨hc, hg, rfl⟩
    refine ⟨_, hc, ?_⟩
    have hm := matchVarianceAt_diagonal (p := p) (hgates g hg)
    have hsome : (searchVariance p (covarianceName p g g)).isSome := by
      unfold searchVariance
      rw [List.findSome?_isSome_iff]
      exact ⟨covarianceName p g g, (List.mem_tails _ _).mpr (List.suffix_refl _), by rw [hm]; rfl⟩
    obtain ⟨g', hs⟩ := Option.isSome_iff_exists.mp hsome
    have h2 := (key _ (.covariance hp hg hg) _ hs)
    have : g = g' := by
      have h3 := h2.2
      unfold covarianceName at h3
      have h4 := List.append_cancel_left h3
      simp only [List.cons.injEq, true_and] at h4
      exact (split_hash (hash_notMem (hgates g hg)) (hash_notMem (hgates g' h2.1)) h4).1
    rw [hs, this]
    rfl

/-- Two parameters and two gates that meet the hypotheses. -/
example : getGradientVariances "temperature".toList
    [gradientName "temperature".toList "gate A".toList, covarianceName "noise".toList "gate A".toList "gate A".toList,
      covarianceName "temperature".toList "gate A".toList "B".toList,
      covarianceName "temperature".toList "gate A".toList "gate A".toList] =
    [("gate A".toList, covarianceName "temperature".toList "gate A".toList "gate A".toList)] := by decide

/-- **C141** is false, for all names: if the name of a parameter ends with the name `p`, its variances are returned for `p`. -/
theorem get_gradient_variances_refuted {p x g : Name} (hp : '#' ∉ p) (hx : '#' ∉ x) (hg : GateName g) :
    (g, covarianceName (x ++ p) g g) ∈ getGradientVariances p [covarianceName (x ++ p) g g] := by
  have hsome : (searchVariance p (covarianceName (x ++ p) g g)).isSome := by
    unfold searchVariance
    rw [List.findSome?_isSome_iff]
    refine ⟨covarianceName p g g, (List.mem_tails _ _).mpr ⟨x, ?_⟩, by rw [matchVarianceAt_diagonal hg]; rfl⟩
    simp [covarianceName]
  obtain ⟨g', hs⟩ := Option.isSome_iff_exists.mp hsome
  obtain ⟨hg', pre, post, heq⟩ := searchVariance_spec hs
  have hgh := hash_notMem hg
  have hgh' := hash_notMem hg'
  have zero : ∀ {l : Name}, '#' ∉ l → l.count '#' = 0 := fun h => List.count_eq_zero.2 h
  have hcov : List.count '#' "#cov".toList = 1 := by decide
  have hcount := congrArg (List.count '#') heq
  simp only [covarianceName, List.count_append, List.count_cons_self, zero hp, zero hx, zero hgh, zero hgh', hcov] at hcount
  have hpre : '#' ∉ pre := List.count_eq_zero.1 (by omega)
  have h1 : (x ++ p) ++ '#' :: (g ++ '#' :: (g ++ "#cov".toList)) =
      (pre ++ p) ++ '#' :: (g' ++ '#' :: (g' ++ "#cov".toList ++ post)) := by
    rw [List.append_assoc pre]; exact heq
  obtain ⟨-, h3⟩ := split_hash (by simp [hx, hp]) (by simp [hpre, hp]) h1
  obtain ⟨rfl, -⟩ := split_hash hgh hgh' h3
  unfold getGradientVariances
  rw [List.mem_filterMap]
  exact ⟨_, List.mem_singleton.2 rfl, by rw [hs]; rfl⟩

example : ("T".toList, covarianceName "RFA".toList "T".toList "T".toList) ∈
    getGradientVariances "A".toList [covarianceName "RFA".toList "T".toList "T".toList] :=
  get_gradient_variances_refuted (p := "A".toList) (x := "RF".toList) (by decide) (by decide) ⟨by decide, by decide⟩

end Qtune.History
