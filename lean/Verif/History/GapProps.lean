import Verif.History.GapModel
import Verif.History.Props

/-! # Rows and files of a history: which file belongs to a row -/

namespace Qtune.History

variable {γ κ ρ π W X V P C : Type} [DecidableEq γ]

/-! ### Specification -/

/-- The file for row `k` is the file of the last autotuner in the run of equal voltages that the row shows. -/
def FilesMatch (h : Hist γ κ ρ π) (l : List (GView γ κ ρ × π)) : Prop :=
  h.rows.map (·.voltages) = (runs (l.map fun a => (a.1.voltages, a.2))).map Prod.fst ∧
  ∀ k, h.reloadPath k = (runs (l.map fun a => (a.1.voltages, a.2)))[k]?.map Prod.snd

/-! ### Helper lemmas -/

theorem any_slice {l : List Bool} {f : Bool → Bool} (h : l.any f = false) (a b : Nat) : (slice l a b).any f = false := by
  rw [List.any_eq_false] at h ⊢
  intro x hx
  exact h x (List.mem_of_mem_take (List.mem_of_mem_drop hx))

/-- An append that succeeds does what `append` does. -/
theorem appendG_ok {h h' : Hist γ κ ρ π} {a : GView γ κ ρ} {p : π} (hp : h.rows = [] → h.paths = [])
    (ha : appendG h a p = (h', .ok ())) : append h a.toView p = .ok h' := by
  unfold appendG at ha
  split at ha
  · simp at ha
  · have hE : (if h.rows.isEmpty then (⟨[firstRow a.toView], h.paths ++ [p]⟩ : Hist γ κ ρ π) else h) =
        if h.rows.isEmpty then ⟨[firstRow a.toView], [p]⟩ else h := by
      by_cases hr : h.rows = []
      · simp [hr, hp hr]
      · simp [List.isEmpty_iff, hr]
    rw [hE] at ha
    unfold append
    generalize (if h.rows.isEmpty then (⟨[firstRow a.toView], [p]⟩ : Hist γ κ ρ π) else h) = g at ha ⊢
    dsimp only at ha ⊢
    split at ha
    · simp at ha
    · rename_i r hr
      rw [hr]
      dsimp only
      split at ha
      · rename_i hv
        rw [if_pos hv]
        unfold stay
        split at ha
        · simp at ha
        · rename_i start hs
          rw [hs]
          dsimp only
          split at ha
          · rename_i he
            simp only [Prod.mk.injEq, and_true] at ha
            rw [if_pos he, ← ha, hs]
          · rename_i he
            split at ha
            · simp at ha
            · simp only [Prod.mk.injEq, and_true] at ha
              rw [if_neg he, ← ha]
      · rename_i hv
        rw [if_neg hv]
        split at ha
        · simp at ha
        · simp only [Prod.mk.injEq, and_true] at ha
          rw [← ha]

/-- With all gradients an append succeeds if `append` does. -/
theorem appendG_of_append {h h' : Hist γ κ ρ π} {a : GView γ κ ρ} {p : π} (hp : h.rows = [] → h.paths = [])
    (hk : a.known.any (!·) = false) (ha : append h a.toView p = .ok h') : appendG h a p = (h', .ok ()) := by
  unfold appendG
  rw [hk, Bool.and_false, if_neg (by simp)]
  have hE : (if h.rows.isEmpty then (⟨[firstRow a.toView], h.paths ++ [p]⟩ : Hist γ κ ρ π) else h) =
      if h.rows.isEmpty then ⟨[firstRow a.toView], [p]⟩ else h := by
    by_cases hr : h.rows = []
    · simp [hr, hp hr]
    · simp [List.isEmpty_iff, hr]
  rw [hE]
  unfold append at ha
  generalize (if h.rows.isEmpty then (⟨[firstRow a.toView], [p]⟩ : Hist γ κ ρ π) else h) = g at ha ⊢
  dsimp only at ha ⊢
  split at ha
  · simp at ha
  · rename_i r hr
    rw [hr]
    dsimp only
    split at ha
    · rename_i hv
      rw [if_pos hv]
      unfold stay at ha
      cases hs : r.tunerIndex with
      | none => rw [hs] at ha; simp at ha
      | some start =>
        rw [hs] at ha
        dsimp only at ha ⊢
        by_cases he : a.evaluated = 0
        · rw [if_pos he] at ha ⊢
          simp only [Except.ok.injEq] at ha
          rw [ha]
        · rw [if_neg he] at ha ⊢
          rw [any_slice hk, if_neg (by simp)]
          simp only [Except.ok.injEq] at ha
          rw [ha]
    · rename_i hv
      rw [if_neg hv, any_slice hk, if_neg (by simp)]
      simp only [Except.ok.injEq] at ha
      rw [ha]

theorem append_rows_ne {h h' : Hist γ κ ρ π} {a : View γ κ ρ} {p : π} (ha : append h a p = .ok h') : h'.rows ≠ [] := by
  unfold append at ha
  dsimp only at ha
  split at ha
  · simp at ha
  · split at ha
    · split at ha
      · simp at ha
      · cases Except.ok.inj ha
        simp
    · cases Except.ok.inj ha
      simp

theorem appendsG_ok : ∀ (l : List (GView γ κ ρ × π)) (h : Hist γ κ ρ π), (h.rows = [] → h.paths = []) →
    (∀ o ∈ (appendsG h l).2, o = .ok ()) →
    appendAll h (l.map fun a => (a.1.toView, a.2)) = .ok (appendsG h l).1 := by
  intro l
  induction l with
  | nil => intro h _ _; rfl
  | cons a l ih =>
    intro h hp hok
    have h1 : (appendG h a.1 a.2).2 = .ok () := hok _ (by simp [appendsG])
    have h2 : append h a.1.toView a.2 = .ok (appendG h a.1 a.2).1 := appendG_ok hp (by rw [← h1])
    simp only [List.map_cons, appendAll]
    rw [h2]
    exact ih _ (fun h0 => absurd h0 (append_rows_ne h2)) fun o ho => hok o (by simp [appendsG, ho])

/-- The history without the files of failed appends.  `appendG` does not look at the files before the last one. -/
theorem appendG_prefix (rows : List (Row γ κ ρ)) (paths pre : List π) (a : GView γ κ ρ) (p : π)
    (hp : rows = [] ∨ paths ≠ []) :
    appendG ⟨rows, pre ++ paths⟩ a p =
      (⟨(appendG ⟨rows, paths⟩ a p).1.rows, pre ++ (appendG ⟨rows, paths⟩ a p).1.paths⟩, (appendG ⟨rows, paths⟩ a p).2) := by
  rcases rows with _ | ⟨r, rows⟩
  · unfold appendG
    simp only [List.isEmpty_nil, Bool.true_and, if_true]
    split
    · simp
    · simp only [List.getLast?_singleton, firstRow]
      simp only [if_true, ← List.append_assoc, List.dropLast_concat]
      split
      · simp
      · split <;> simp
  · have hne : paths ≠ [] := by simpa using hp
    unfold appendG
    simp only [List.isEmpty_cons, Bool.false_and, Bool.false_eq_true, if_false]
    split
    · simp
    · split
      · rw [List.dropLast_append_of_ne_nil hne]
        split
        · simp
        · split
          · simp
          · split <;> simp
      · split <;> simp

theorem appendG_paths (h : Hist γ κ ρ π) (a : GView γ κ ρ) (p : π) : (appendG h a p).1.paths ≠ [] := by
  unfold appendG
  dsimp only
  by_cases hr : h.rows = []
  · simp only [hr, List.isEmpty_nil, Bool.true_and, if_true]
    split
    · simp
    · simp only [List.getLast?_singleton, firstRow, if_true]
      split
      · simp
      · split <;> simp
  · have : h.rows.isEmpty = false := by simpa using hr
    simp only [this, Bool.false_and, Bool.false_eq_true, if_false]
    split
    · rename_i h0
      simp [hr] at h0
    · split
      · split
        · simp
        · split
          · simp
          · split <;> simp
      · split <;> simp

theorem appendsG_prefix : ∀ (l : List (GView γ κ ρ × π)) (rows : List (Row γ κ ρ)) (paths pre : List π),
    (rows = [] ∨ paths ≠ []) →
    appendsG ⟨rows, pre ++ paths⟩ l =
      (⟨(appendsG ⟨rows, paths⟩ l).1.rows, pre ++ (appendsG ⟨rows, paths⟩ l).1.paths⟩, (appendsG ⟨rows, paths⟩ l).2) := by
  intro l
  induction l with
  | nil => intro rows paths pre _; rfl
  | cons a l ih =>
    intro rows paths pre hp
    unfold appendsG
    rw [appendG_prefix rows paths pre a.1 a.2 hp]
    have h1 := ih (appendG ⟨rows, paths⟩ a.1 a.2).1.rows (appendG ⟨rows, paths⟩ a.1 a.2).1.paths pre
      (Or.inr (appendG_paths _ _ _))
    rw [h1]

theorem appendsG_append (l l' : List (GView γ κ ρ × π)) : ∀ h : Hist γ κ ρ π,
    appendsG h (l ++ l') = ((appendsG (appendsG h l).1 l').1, (appendsG h l).2 ++ (appendsG (appendsG h l).1 l').2) := by
  induction l with
  | nil => intro h; rfl
  | cons a l ih =>
    intro h
    simp only [List.cons_append, appendsG, ih]

/-- Appends with missing gradients to a history without rows. -/
theorem appendsG_missing : ∀ (l : List (GView γ κ ρ × π)) (paths : List π), (∀ a ∈ l, false ∈ a.1.known) →
    appendsG (⟨[], paths⟩ : Hist γ κ ρ π) l = (⟨[], paths ++ l.map Prod.snd⟩, l.map fun _ => .error .typeError) := by
  intro l
  induction l with
  | nil => intro paths _; simp [appendsG]
  | cons a l ih =>
    intro paths hm
    have ha : a.1.known.any (!·) = true := List.any_eq_true.2 ⟨false, hm a (by simp), rfl⟩
    have h1 : appendG (⟨[], paths⟩ : Hist γ κ ρ π) a.1 a.2 = (⟨[], paths ++ [a.2]⟩, .error .typeError) := by
      unfold appendG
      simp [ha]
    unfold appendsG
    rw [h1, ih (paths ++ [a.2]) fun b hb => hm b (by simp [hb])]
    simp

theorem appendsG_known : ∀ (l : List (GView γ κ ρ × π)) (h h' : Hist γ κ ρ π), (h.rows = [] → h.paths = []) →
    (∀ a ∈ l, ∀ b ∈ a.1.known, b = true) → appendAll h (l.map fun a => (a.1.toView, a.2)) = .ok h' →
    appendsG h l = (h', l.map fun _ => .ok ()) := by
  intro l
  induction l with
  | nil => intro h h' _ _ ha; cases Except.ok.inj ha; rfl
  | cons a l ih =>
    intro h h' hp hk ha
    simp only [List.map_cons, appendAll] at ha
    split at ha
    · simp at ha
    · rename_i h1 h2
      have h3 : appendG h a.1 a.2 = (h1, .ok ()) := by
        refine appendG_of_append hp ?_ h2
        rw [List.any_eq_false]
        intro b hb
        simp [hk a (by simp) b hb]
      unfold appendsG
      rw [h3, ih h1 h' (fun h0 => absurd h0 (append_rows_ne h2)) (fun b hb => hk b (by simp [hb])) ha]
      simp

/-! ### Theorems -/

/-- **C138**, as long as no append has raised: `get_reload_path(k)` is the file of the last autotuner in the run of equal
voltages that row `k` shows.  Missing: appends that raise, see `reload_path_refuted`. -/
theorem reload_path_partial (l : List (GView γ κ ρ × π)) (hok : ∀ o ∈ (appendsG (Hist.empty) l).2, o = .ok ()) :
    FilesMatch (appendsG (Hist.empty : Hist γ κ ρ π) l).1 l := by
  have h := appendsG_ok l Hist.empty (fun _ => rfl) hok
  obtain ⟨h1, h2⟩ := (rows_are_runs (l.map fun a => (a.1.toView, a.2))).1 _ h
  rw [List.map_map] at h1 h2
  refine ⟨h1, fun k => ?_⟩
  unfold Hist.reloadPath
  rw [h2, List.getElem?_map]
  rfl

/-- **C138** is refuted: while some gradient is not known, every append raises `TypeError` but stores its file. After `F`
such appends the file for row `k` is the one of the `k`-th failed append, or the file that belongs to row `k - F`. -/
theorem reload_path_refuted (l l' : List (GView γ κ ρ × π)) (hl : ∀ a ∈ l, false ∈ a.1.known)
    (hk : ∀ a ∈ l', ∀ b ∈ a.1.known, b = true) (hm : MovesEvaluated (l'.map fun a => (a.1.toView, a.2))) :
    (appendsG (Hist.empty : Hist γ κ ρ π) (l ++ l')).2 = (l.map fun _ => .error .typeError) ++ l'.map (fun _ => .ok ()) ∧
    (appendsG (Hist.empty : Hist γ κ ρ π) (l ++ l')).1.rows.map (·.voltages) =
      (runs (l'.map fun a => (a.1.voltages, a.2))).map Prod.fst ∧
    ∀ k, (appendsG (Hist.empty : Hist γ κ ρ π) (l ++ l')).1.reloadPath k =
      if k < l.length then (l[k]?).map Prod.snd
      else (runs (l'.map fun a => (a.1.voltages, a.2)))[k - l.length]?.map Prod.snd := by
  obtain ⟨h1, h2⟩ := rows_are_runs (l'.map fun a => (a.1.toView, a.2))
  obtain ⟨h', h3⟩ := h2 hm
  obtain ⟨h4, h5⟩ := h1 h' h3
  rw [List.map_map] at h4 h5
  have h6 := appendsG_known l' Hist.empty h' (fun _ => rfl) hk h3
  have h7 := appendsG_missing l [] hl
  have h8 := appendsG_prefix l' [] [] (l.map Prod.snd) (Or.inl rfl)
  rw [List.append_nil] at h8
  have h6' : appendsG (⟨[], []⟩ : Hist γ κ ρ π) l' = (h', l'.map fun _ => .ok ()) := h6
  rw [h6'] at h8
  rw [appendsG_append]
  have h7' : appendsG (Hist.empty : Hist γ κ ρ π) l = (⟨[], l.map Prod.snd⟩, l.map fun _ => .error .typeError) := by
    rw [List.nil_append] at h7
    exact h7
  rw [h7', h8]
  refine ⟨rfl, h4, fun k => ?_⟩
  unfold Hist.reloadPath
  dsimp only
  by_cases hkl : k < l.length
  · rw [if_pos hkl, List.getElem?_append_left (by simpa using hkl), List.getElem?_map]
  · rw [if_neg hkl, List.getElem?_append_right (by simpa using hkl), List.length_map, h5, List.getElem?_map]
    rfl

/-- **C138**: if all gradients are known from the beginning (Kalman estimators), no append raises in a run of the
autotuner in which `iterate` does not raise, and the history is the one of C60 and C61. -/
theorem known_gradients_append (R : Reader W γ κ ρ) (known : W → Nat → Bool) (H : Autotuner.Hierarchy W X V P C)
    (path : Nat → π) (w : W) (x : X) (hk : ∀ w i, known w i = true) (k : Nat)
    (hit : ∀ j < k, (Autotuner.iterate H (.ok ()) (watched R known H path (Autotuner.fresh w x) j).1).2.2 = .ok ()) :
    (∃ evs, recorded R H path (Autotuner.fresh w x) k = .ok ((watched R known H path (Autotuner.fresh w x) k).1,
      (watched R known H path (Autotuner.fresh w x) k).2.1, evs)) ∧
    (watched R known H path (Autotuner.fresh w x) k).2.2 = List.replicate k (.ok ()) := by
  have hany : ∀ s : Autotuner.State W X V, (R.gview known H s).known.any (!·) = false := by
    intro s
    rw [List.any_eq_false]
    intro b hb
    obtain ⟨i, -, rfl⟩ := List.mem_map.1 hb
    simp [hk]
  have key : ∀ k, (∀ j < k, (Autotuner.iterate H (.ok ()) (watched R known H path (Autotuner.fresh w x) j).1).2.2 = .ok ()) →
      (∃ evs, recorded R H path (Autotuner.fresh w x) k = .ok ((watched R known H path (Autotuner.fresh w x) k).1,
        (watched R known H path (Autotuner.fresh w x) k).2.1, evs)) ∧
      (watched R known H path (Autotuner.fresh w x) k).2.2 = List.replicate k (.ok ()) ∧
      ((watched R known H path (Autotuner.fresh w x) k).2.1 = Hist.empty ∨
        ∃ rs r j, (watched R known H path (Autotuner.fresh w x) k).2.1.rows = rs ++ [r] ∧
          r.voltages = R.lastVoltages (watched R known H path (Autotuner.fresh w x) k).1.tuners ∧
          r.tunerIndex = some j) := by
    intro k
    induction k with
    | zero => intro _; exact ⟨⟨[], rfl⟩, rfl, Or.inl rfl⟩
    | succ k ih =>
      intro hit
      obtain ⟨⟨evs, h1⟩, h2, h3⟩ := ih fun j hj => hit j (by omega)
      have h4 := hit k (by omega)
      unfold watched recorded
      rw [h1]
      rcases hw : watched R known H path (Autotuner.fresh w x) k with ⟨s, h, outs⟩
      rw [hw] at h2 h3 h4
      dsimp only at h2 h3 h4 ⊢
      rcases hi : Autotuner.iterate H (.ok ()) s with ⟨s', evs', r⟩
      rw [hi] at h4
      dsimp only at h4
      subst h4
      obtain ⟨h', h5, h6⟩ := weak_step (path k) h3 hi
      have hp : h.rows = [] → h.paths = [] := by
        intro h0
        rcases h3 with rfl | ⟨rs, r, j, h7, -⟩
        · rfl
        · rw [h0] at h7; simp at h7
      have h8 : appendG h (R.gview known H s') (path k) = (h', .ok ()) := appendG_of_append hp (hany s') h5
      dsimp only
      rw [h5, h8]
      refine ⟨⟨_, rfl⟩, ?_, Or.inr h6⟩
      rw [h2, List.replicate_succ']
  exact ⟨(key k hit).1, (key k hit).2.1⟩

/-- The hypotheses are satisfiable: two appends without gradients, then two rows. -/
example : ∃ (l l' : List (GView Nat String Nat × Nat)), (∀ a ∈ l, false ∈ a.1.known) ∧ l.length = 2 ∧
    (∀ a ∈ l', ∀ b ∈ a.1.known, b = true) ∧ MovesEvaluated (l'.map fun a => (a.1.toView, a.2)) ∧
    (appendsG (Hist.empty : Hist Nat String Nat Nat) (l ++ l')).1.rows.length = 2 ∧
    (appendsG (Hist.empty : Hist Nat String Nat Nat) (l ++ l')).1.reloadPath 1 = some 11 := by
  refine ⟨[(⟨⟨5, [[("a", 1)]], 0, false, true⟩, [false]⟩, 10), (⟨⟨5, [[("a", 1)]], 0, true, false⟩, [false]⟩, 11)],
    [(⟨⟨5, [[("a", 1)]], 0, false, true⟩, [true]⟩, 12), (⟨⟨6, [[("a", 2)]], 1, false, false⟩, [true]⟩, 13)],
    by simp, rfl, by simp, ?_, rfl, rfl⟩
  simp [MovesEvaluated, View.evaluated]

end Qtune.History
