import Verif.History.CovarianceModel
import Verif.History.Gradients

/-!
# C156: `get_gradient_covariances`
-/

namespace Qtune.History

theorem matchCovarianceAt_spec {p t g₁ g₂ : Name} (h : matchCovarianceAt p t = some (g₁, g₂)) :
    GateName g₁ ∧ GateName g₂ ∧ ∃ post, t = p ++ '#' :: (g₁ ++ '#' :: (g₂ ++ "#cov".toList ++ post)) := by
  unfold matchCovarianceAt at h
  split at h
  · rename_i h1
    obtain ⟨rest, h1⟩ := List.isPrefixOf_iff_prefix.mp h1
    have hd : t.drop (p.length + 1) = rest := by
      rw [← h1]
      simp
    dsimp only at h
    rw [hd] at h
    split at h
    · rename_i rest' hrest'
      split at h
      · rename_i h2
        obtain ⟨h2, h3, h4⟩ := h2
        obtain ⟨post, h4⟩ := List.isPrefixOf_iff_prefix.mp h4
        cases h
        refine ⟨gateName_iff.2 ⟨h2, fun c hc => List.mem_takeWhile_imp hc⟩, gateName_iff.2 ⟨h3, fun c hc => List.mem_takeWhile_imp hc⟩, post, ?_⟩
        have e2 : rest'.takeWhile wordOrSpace ++ "#cov".toList ++ post = rest' := by
          have := List.takeWhile_append_dropWhile (p := wordOrSpace) (l := rest')
          rw [← h4] at this
          simpa using this
        have e1 : rest.takeWhile wordOrSpace ++ '#' :: rest' = rest := by
          have := List.takeWhile_append_dropWhile (p := wordOrSpace) (l := rest)
          rw [hrest'] at this
          exact this
        rw [e2, e1, ← h1]
        simp
      · cases h
    · cases h
  · cases h

theorem matchCovarianceAt_entry {p g₁ g₂ : Name} (hg₁ : GateName g₁) (hg₂ : GateName g₂) :
    matchCovarianceAt p (covarianceName p g₁ g₂) = some (g₁, g₂) := by
  unfold matchCovarianceAt covarianceName
  have h1 : (p ++ ['#']).isPrefixOf (p ++ '#' :: (g₁ ++ '#' :: (g₂ ++ "#cov".toList))) = true :=
    List.isPrefixOf_iff_prefix.mpr ⟨g₁ ++ '#' :: (g₂ ++ "#cov".toList), by simp⟩
  rw [if_pos h1]
  have hd : (p ++ '#' :: (g₁ ++ '#' :: (g₂ ++ "#cov".toList))).drop (p.length + 1) = g₁ ++ '#' :: (g₂ ++ "#cov".toList) := by
    have : p ++ '#' :: (g₁ ++ '#' :: (g₂ ++ "#cov".toList)) = (p ++ ['#']) ++ (g₁ ++ '#' :: (g₂ ++ "#cov".toList)) := by simp
    rw [this, List.drop_append_of_le_length (by simp)]
    simp
  have hh : wordOrSpace '#' = false := by decide
  have ht : ∀ {g r : Name}, GateName g → (g ++ '#' :: r).takeWhile wordOrSpace = g := by
    intro g r hg
    rw [List.takeWhile_append_of_pos (gateName_iff.1 hg).2, List.takeWhile_cons_of_neg (by simp [hh])]
    simp
  have hw : ∀ {g r : Name}, GateName g → (g ++ '#' :: r).dropWhile wordOrSpace = '#' :: r := by
    intro g r hg
    rw [List.dropWhile_append_of_pos (gateName_iff.1 hg).2, List.dropWhile_cons_of_neg (by simp [hh])]
  have hc : "#cov".toList = '#' :: "cov".toList := by decide
  rw [hd]
  dsimp only
  rw [ht hg₁, hw hg₁]
  change (if g₁ ≠ [] ∧ (g₂ ++ "#cov".toList).takeWhile wordOrSpace ≠ [] ∧
      "#cov".toList.isPrefixOf ((g₂ ++ "#cov".toList).dropWhile wordOrSpace) = true then
    some (g₁, (g₂ ++ "#cov".toList).takeWhile wordOrSpace) else none) = some (g₁, g₂)
  rw [hc, ht hg₂, hw hg₂, if_pos ⟨hg₁.1, hg₂.1, List.isPrefixOf_iff_prefix.mpr (List.prefix_refl _)⟩]

theorem findCovariance_spec {p c g₁ g₂ : Name} (h : findCovariance p c = [(g₁, g₂)]) :
    GateName g₁ ∧ GateName g₂ ∧ ∃ pre post, c = pre ++ (p ++ '#' :: (g₁ ++ '#' :: (g₂ ++ "#cov".toList ++ post))) := by
  unfold findCovariance at h
  rw [Option.toList_eq_singleton_iff] at h
  obtain ⟨t, ht, hm⟩ := List.exists_of_findSome?_eq_some h
  obtain ⟨pre, hpre⟩ := (List.mem_tails _ _).mp ht
  obtain ⟨h1, h1', post, h2⟩ := matchCovarianceAt_spec hm
  exact ⟨h1, h1', pre, post, by rw [← hpre, ← h2]⟩

theorem findCovariance_cases (p c : Name) : findCovariance p c = [] ∨ ∃ g₁ g₂, findCovariance p c = [(g₁, g₂)] := by
  unfold findCovariance
  rcases text : (c.tails.findSome? (matchCovarianceAt p)) with _ | ⟨g₁, g₂⟩
  · exact .inl rfl
  · exact .inr ⟨g₁, g₂, rfl⟩

/-- For columns of a history, the columns that are found are the covariances of the parameter. -/
theorem findCovariance_column {params gates : List Name} {p : Name} (hp : p ∈ params)
    (hparams : ∀ q ∈ params, '#' ∉ q) (hsuffix : ∀ q ∈ params, p <:+ q → q = p) (hgates : ∀ g ∈ gates, GateName g)
    {c : Name} (hc : Column params gates c) (g₁ g₂ : Name) :
    findCovariance p c = [(g₁, g₂)] ↔ g₁ ∈ gates ∧ g₂ ∈ gates ∧ c = covarianceName p g₁ g₂ := by
  have hph := hparams p hp
  have zero : ∀ {l : Name}, '#' ∉ l → l.count '#' = 0 := fun h => List.count_eq_zero.2 h
  have key : ∀ c, Column params gates c → ∀ g₁ g₂, findCovariance p c = [(g₁, g₂)] →
      g₁ ∈ gates ∧ g₂ ∈ gates ∧ c = covarianceName p g₁ g₂ := by
    intro c hc k₁ k₂ hs
    obtain ⟨hk₁, hk₂, pre, post, heq⟩ := findCovariance_spec hs
    have hkh₁ := hash_notMem hk₁
    have hkh₂ := hash_notMem hk₂
    have hcov : List.count '#' "#cov".toList = 1 := by decide
    have hcount : c.count '#' = pre.count '#' + 3 + post.count '#' := by
      rw [heq]
      simp only [List.count_append, List.count_cons_self, zero hph, zero hkh₁, zero hkh₂, hcov]
      omega
    cases hc with
    | gate hm => rw [zero (hash_notMem (hgates _ hm))] at hcount; omega
    | parameter hm => rw [zero (hparams _ hm)] at hcount; omega
    | @variance q hm =>
      have : List.count '#' "#var".toList = 1 := by decide
      simp only [varianceName, List.count_append, zero (hparams _ hm), this] at hcount
      omega
    | @gradient q g' hm hm' =>
      have : List.count '#' "#grad".toList = 1 := by decide
      simp only [gradientName, List.count_append, List.count_cons_self, zero (hparams _ hm), this,
        zero (hash_notMem (hgates _ hm'))] at hcount
      omega
    | @covariance q a b hm hma hmb =>
      have ha := hash_notMem (hgates _ hma)
      have hb := hash_notMem (hgates _ hmb)
      simp only [covarianceName, List.count_append, List.count_cons_self, zero (hparams _ hm), hcov, zero ha, zero hb]
        at hcount
      have hpre : '#' ∉ pre := List.count_eq_zero.1 (by omega)
      have h1 : q ++ '#' :: (a ++ '#' :: (b ++ "#cov".toList)) =
          (pre ++ p) ++ '#' :: (k₁ ++ '#' :: (k₂ ++ "#cov".toList ++ post)) := by
        rw [List.append_assoc]; exact heq
      obtain ⟨h2, h3⟩ := split_hash (hparams _ hm) (by simp [hpre, hph]) h1
      have := hsuffix q hm ⟨pre, h2.symm⟩
      subst this
      obtain ⟨rfl, h4⟩ := split_hash ha hkh₁ h3
      have h5 : b ++ '#' :: "cov".toList = k₂ ++ '#' :: ("cov".toList ++ post) := by
        have : b ++ "#cov".toList = k₂ ++ ("#cov".toList ++ post) := by rw [h4]; simp
        exact this
      obtain ⟨rfl, -⟩ := split_hash hb hkh₂ h5
      exact ⟨hma, hmb, rfl⟩
  refine ⟨key c hc g₁ g₂, ?_⟩
  rintro ⟨h1, h2, rfl⟩
  have hsome : findCovariance p (covarianceName p g₁ g₂) ≠ [] := by
    unfold findCovariance
    rw [Ne, Option.toList_eq_nil_iff, ← Ne, Option.ne_none_iff_isSome, List.findSome?_isSome_iff]
    exact ⟨covarianceName p g₁ g₂, (List.mem_tails _ _).mpr (List.suffix_refl _),
      by rw [matchCovarianceAt_entry (hgates _ h1) (hgates _ h2)]; rfl⟩
  rcases findCovariance_cases p (covarianceName p g₁ g₂) with h | ⟨k₁, k₂, h⟩
  · exact absurd h hsome
  · have h3 := key _ hc _ _ h
    have h4 := h3.2.2
    unfold covarianceName at h4
    replace h4 := List.append_cancel_left h4
    simp only [List.cons.injEq, true_and] at h4
    obtain ⟨rfl, h5⟩ := split_hash (hash_notMem (hgates _ h1)) (hash_notMem (hgates _ h3.1)) h4
    have h6 : g₂ ++ '#' :: "cov".toList = k₂ ++ '#' :: "cov".toList := h5
    obtain ⟨rfl, -⟩ := split_hash (hash_notMem (hgates _ h2)) (hash_notMem (hgates _ h3.2.1)) h6
    exact h

theorem lookup_text (l : List (Name × List Val)) (g : List (Name × Name)) :
    (l.map fun c => (Label.text c.1, c.2)).lookup (.gates g) = none := by
  induction l with
  | nil => rfl
  | cons c l ih =>
    rw [List.map_cons, List.lookup_cons]
    have : ((Label.gates g) == (Label.text c.1)) = false := by
      rw [beq_eq_false_iff_ne]
      intro h
      cases h
    rw [this]
    exact ih

/-- What `get_gradient_covariances` should return: for each column that holds a covariance of the parameter its gates and
its values. -/
def CovariancesOf (p : Name) (gates : List Name) (frame : List (Name × List Val)) (result : List (Label × List Val)) : Prop :=
  ∀ g₁ ∈ gates, ∀ g₂ ∈ gates, ∀ v, (covarianceName p g₁ g₂, v) ∈ frame → (.gates [(g₁, g₂)], v) ∈ result

/-- **C156**, part: the columns that are returned are labelled by the pairs of gates for which the history has a covariance of
the parameter, each once if the names of the columns differ.  Missing: their values, see `get_gradient_covariances_refuted`. -/
theorem get_gradient_covariances_labels_partial {params gates : List Name} {p : Name} (hp : p ∈ params)
    (hparams : ∀ q ∈ params, '#' ∉ q) (hsuffix : ∀ q ∈ params, p <:+ q → q = p) (hgates : ∀ g ∈ gates, GateName g)
    (rows : Nat) {frame : List (Name × List Val)} (hcols : ∀ c ∈ frame, Column params gates c.1)
    (hne : ∃ g₁ ∈ gates, ∃ g₂ ∈ gates, covarianceName p g₁ g₂ ∈ frame.map Prod.fst) :
    ∃ r, getGradientCovariances p rows frame = .ok r ∧
      (∀ l, l ∈ r.map Prod.fst ↔ ∃ g₁ ∈ gates, ∃ g₂ ∈ gates, l = .gates [(g₁, g₂)] ∧ covarianceName p g₁ g₂ ∈ frame.map Prod.fst) ∧
      ((frame.map Prod.fst).Nodup → (r.map Prod.fst).Nodup) := by
  have hfind := fun (c : Name × List Val) (hc : c ∈ frame) => findCovariance_column hp hparams hsuffix hgates (hcols c hc)
  unfold getGradientCovariances
  dsimp only
  generalize hdf : (frame.filter fun c => !(findCovariance p c.1).isEmpty).mergeSort
    (fun a b => pairsLe (findCovariance p a.1) (findCovariance p b.1)) = df
  have hmem : ∀ c, c ∈ df ↔ c ∈ frame ∧ findCovariance p c.1 ≠ [] := by
    intro c
    rw [← hdf, List.mem_mergeSort, List.mem_filter]
    simp
  have hfst : (reindex rows (df.map fun c => (Label.text c.1, c.2)) (df.map fun c => .gates (findCovariance p c.1))).map Prod.fst =
      df.map fun c => .gates (findCovariance p c.1) := by
    unfold reindex
    rw [List.map_map]
    simp [Function.comp_def]
  have hlab : ∀ l, l ∈ (reindex rows (df.map fun c => (Label.text c.1, c.2))
      (df.map fun c => .gates (findCovariance p c.1))).map Prod.fst ↔
      ∃ g₁ ∈ gates, ∃ g₂ ∈ gates, l = .gates [(g₁, g₂)] ∧ covarianceName p g₁ g₂ ∈ frame.map Prod.fst := by
    intro l
    rw [hfst, List.mem_map]
    constructor
    · rintro ⟨c, hc, rfl⟩
      obtain ⟨h1, h2⟩ := (hmem c).1 hc
      rcases findCovariance_cases p c.1 with h | ⟨k₁, k₂, h⟩
      · exact absurd h h2
      · obtain ⟨h3, h4, h5⟩ := (hfind c h1 k₁ k₂).1 h
        exact ⟨k₁, h3, k₂, h4, by rw [h], h5 ▸ List.mem_map.2 ⟨c, h1, rfl⟩⟩
    · rintro ⟨k₁, h3, k₂, h4, rfl, h5⟩
      obtain ⟨c, hc, hce⟩ := List.mem_map.1 h5
      have := (hfind c hc k₁ k₂).2 ⟨h3, h4, hce⟩
      exact ⟨c, (hmem c).2 ⟨hc, by rw [this]; simp⟩, by rw [this]⟩
  have hnil : df.isEmpty = false := by
    obtain ⟨k₁, h3, k₂, h4, h5⟩ := hne
    obtain ⟨c, hc, hce⟩ := List.mem_map.1 h5
    have h6 := (hfind c hc k₁ k₂).2 ⟨h3, h4, hce⟩
    have : c ∈ df := (hmem c).2 ⟨hc, by rw [h6]; simp⟩
    cases df with
    | nil => cases this
    | cons _ _ => rfl
  refine ⟨_, by rw [hnil]; rfl, hlab, fun hnd => ?_⟩
  rw [hfst]
  have hperm : (df.map Prod.fst).Nodup := by
    have : (df.map Prod.fst).Perm ((frame.filter fun c => !(findCovariance p c.1).isEmpty).map Prod.fst) := by
      rw [← hdf]
      exact (List.mergeSort_perm _ _).map _
    rw [this.nodup_iff]
    exact hnd.sublist (List.filter_sublist.map _)
  have hpair := List.pairwise_map.1 hperm
  refine List.pairwise_map.2 (hpair.imp_of_mem fun {a b} ha hb hab heq => hab ?_)
  obtain ⟨ha, hna⟩ := (hmem a).1 ha
  obtain ⟨hb, -⟩ := (hmem b).1 hb
  rcases findCovariance_cases p a.1 with h | ⟨k₁, k₂, h⟩
  · exact absurd h hna
  · have h' : findCovariance p b.1 = [(k₁, k₂)] := by
      rw [← h]
      exact (Label.gates.inj heq).symm
    rw [((hfind a ha k₁ k₂).1 h).2.2, ((hfind b hb k₁ k₂).1 h').2.2]

/-- **C156**, part: the columns come in the order of the names of the gates, first of the first gate, then of the second. -/
theorem get_gradient_covariances_sorted_partial {p : Name} {rows : Nat} {frame : List (Name × List Val)}
    {r : List (Label × List Val)} (h : getGradientCovariances p rows frame = .ok r) :
    (r.map Prod.fst).Pairwise fun a b => ∀ g₁ g₂ k₁ k₂, a = .gates [(g₁, g₂)] → b = .gates [(k₁, k₂)] →
      g₁ < k₁ ∨ g₁ = k₁ ∧ g₂ ≤ k₂ := by
  unfold getGradientCovariances at h
  dsimp only at h
  split at h
  · cases h
  cases h
  have hfst : ∀ df : List (Name × List Val), (reindex rows (df.map fun c => (Label.text c.1, c.2))
      (df.map fun c => .gates (findCovariance p c.1))).map Prod.fst = df.map fun c => .gates (findCovariance p c.1) := by
    intro df
    unfold reindex
    rw [List.map_map]
    simp [Function.comp_def]
  rw [hfst, List.pairwise_map]
  refine (List.pairwise_mergeSort (le := fun a b : Name × List Val => pairsLe (findCovariance p a.1) (findCovariance p b.1))
    ?_ ?_ _).imp ?_
  · intro a b c hab hbc
    revert hab hbc
    cases findCovariance p a.1 <;> cases findCovariance p b.1 <;> cases findCovariance p c.1 <;> simp [pairsLe]
    rintro (h1 | ⟨h1, h1'⟩) (h2 | ⟨h2, h2'⟩)
    · exact .inl (List.lt_trans h1 h2)
    · exact .inl (h2 ▸ h1)
    · exact .inl (h1 ▸ h2)
    · exact .inr ⟨h1.trans h2, List.le_trans h1' h2'⟩
  · intro a b
    cases findCovariance p a.1 <;> cases findCovariance p b.1 <;> simp [pairsLe]
    rename_i x _ y _
    rcases List.le_total x.1 y.1 with h | h
    · rcases List.le_iff_lt_or_eq.1 h with h | h
      · exact .inl (.inl h)
      · rcases List.le_total x.2 y.2 with h' | h'
        · exact .inl (.inr ⟨h, h'⟩)
        · exact .inr (.inr ⟨h.symm, h'⟩)
    · rcases List.le_iff_lt_or_eq.1 h with h | h
      · exact .inr (.inl h)
      · rcases List.le_total x.2 y.2 with h' | h'
        · exact .inl (.inr ⟨h.symm, h'⟩)
        · exact .inr (.inr ⟨h, h'⟩)
  · intro a b hab g₁ g₂ k₁ k₂ ha hb
    rw [Label.gates.inj ha, Label.gates.inj hb] at hab
    simpa [pairsLe] using hab

/-- **C156** is false for every history: whatever the data frame holds, each value that is returned is NaN. -/
theorem get_gradient_covariances_values {p : Name} {rows : Nat} {frame : List (Name × List Val)}
    {r : List (Label × List Val)} (h : getGradientCovariances p rows frame = .ok r) :
    ∀ c ∈ r, c.2 = List.replicate rows none := by
  unfold getGradientCovariances at h
  dsimp only at h
  split at h
  · cases h
  · cases h
    intro c hc
    unfold reindex at hc
    obtain ⟨l, hl, rfl⟩ := List.mem_map.1 hc
    obtain ⟨c', -, rfl⟩ := List.mem_map.1 hl
    rw [lookup_text]
    rfl

/-- **C156** is refuted: as soon as a covariance is known in some row, it is not returned. -/
theorem get_gradient_covariances_refuted {p : Name} {rows : Nat} {frame : List (Name × List Val)} {gates : List Name}
    {g₁ g₂ : Name} (h₁ : g₁ ∈ gates) (h₂ : g₂ ∈ gates) {v : List Val} {x : ℝ} (hv : some x ∈ v)
    (hf : (covarianceName p g₁ g₂, v) ∈ frame) :
    ¬ ∃ r, getGradientCovariances p rows frame = .ok r ∧ CovariancesOf p gates frame r := by
  rintro ⟨r, hr, hc⟩
  have := get_gradient_covariances_values hr _ (hc g₁ h₁ g₂ h₂ v hf)
  dsimp only at this
  rw [this] at hv
  have := List.eq_of_mem_replicate hv
  cases this

/-- A history without covariances of the parameter raises a TypeError instead of returning an empty frame. -/
theorem no_covariances_refuted (p : Name) (rows : Nat) : getGradientCovariances p rows [] = .error .typeError := by
  simp [getGradientCovariances]

/-- A history of one row with the covariance of two gates. -/
example : ¬ ∃ r, getGradientCovariances "tc".toList 1 [(covarianceName "tc".toList "SA".toList "SB".toList, [some 2])] = .ok r ∧
    CovariancesOf "tc".toList ["SA".toList, "SB".toList] [(covarianceName "tc".toList "SA".toList "SB".toList, [some 2])] r :=
  get_gradient_covariances_refuted (g₁ := "SA".toList) (g₂ := "SB".toList) (by simp) (by simp) (v := [some 2]) (x := 2)
    (by simp) (by simp)

end Qtune.History
