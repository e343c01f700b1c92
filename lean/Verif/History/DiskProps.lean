import Verif.History.DiskModel
import Verif.History.Props
import Verif.Times.Props

/-!
# C140: a history loaded from a directory
-/

namespace Qtune.History

open Times

variable {S γ κ ρ π W X V P C : Type}

/-! ### Lemmas -/

theorem Disk.save_at (d : Disk S) (p : List String) (t : DateTime) (a : S) {l : List (String × Entry S)} (h : d p = some l) :
    (d.save p t a) p = some (l ++ [(fileName ".hdf5" t, .file a)]) := by
  have hm : (d.makedirs p) p = some l := by
    cases p with
    | nil => exact h
    | cons n p => unfold Disk.makedirs; rw [if_pos (by simp [h])]; exact h
  unfold Disk.save Disk.add
  rw [Function.update_self, hm]
  rfl

theorem Disk.save_new (d : Disk S) (n : String) (p : List String) (t : DateTime) (a : S) (h : d (n :: p) = none) :
    (d.save (n :: p) t a) (n :: p) = some [(fileName ".hdf5" t, .file a)] := by
  have hm : (d.makedirs (n :: p)) (n :: p) = some [] := by
    unfold Disk.makedirs
    rw [if_neg (by simp [h]), Function.update_self]
  unfold Disk.save Disk.add
  rw [Function.update_self, hm]
  rfl

/-- The entries made by saving. -/
def entriesOf (saves : List (DateTime × S)) : List (String × Entry S) :=
  saves.map fun x => (fileName ".hdf5" x.1, .file x.2)

theorem files_saves : ∀ (saves : List (DateTime × S)) (d : Disk S) (p : List String) (l : List (String × Entry S)),
    d p = some l → (files d p (saves.map fun x => .saved x.1 x.2)).1 p = some (l ++ entriesOf saves) := by
  intro saves
  induction saves with
  | nil => intro d p l h; simp [files, entriesOf, h]
  | cons x saves ih =>
    intro d p l h
    rw [List.map_cons, files, ih _ p _ (d.save_at p x.1 x.2 h), List.append_assoc]
    rfl

theorem files_new (saves : List (DateTime × S)) (hne : saves ≠ []) (d : Disk S) (n : String) (p : List String)
    (h : d (n :: p) = none) :
    (files d (n :: p) (saves.map fun x => .saved x.1 x.2)).1 (n :: p) = some (entriesOf saves) := by
  cases saves with
  | nil => exact absurd rfl hne
  | cons x saves =>
    rw [List.map_cons, files, files_saves saves _ _ _ (d.save_new n p x.1 x.2 h)]
    rfl

theorem sort_entries (saves : List (DateTime × S)) (hvalid : ∀ x ∈ saves, Valid x.1)
    (hsorted : saves.Pairwise fun x y => Earlier x.1 y.1) (entries : List (String × Entry S))
    (hperm : entries.Perm (entriesOf saves)) :
    (entries.mergeSort fun a b => decide (a.1 ≤ b.1)) = entriesOf saves := by
  have hlt : (entriesOf saves).Pairwise fun a b => a.1 < b.1 := by
    unfold entriesOf
    rw [List.pairwise_map]
    refine List.Pairwise.imp_of_mem ?_ hsorted
    intro a b ha hb hab
    exact (fileName_lt ".hdf5" a.1 b.1 (hvalid a ha) (hvalid b hb)).2 hab
  have hinj : ∀ a ∈ entriesOf saves, ∀ b ∈ entriesOf saves, a.1 = b.1 → a = b := by
    intro a ha b hb hab
    by_contra hne
    have h1 : (entriesOf saves).Pairwise fun a b => a.1 = b.1 → a = b := hlt.imp fun h he => absurd he (ne_of_lt h)
    have h2 : (entriesOf saves).Pairwise (flip fun a b => a.1 = b.1 → a = b) :=
      hlt.imp fun h he => absurd he (ne_of_gt h)
    exact hne (List.Pairwise.forall_of_forall_of_flip (fun _ _ _ => rfl) h1 h2 ha hb hab)
  have hm : (entries.mergeSort fun a b => decide (a.1 ≤ b.1)).Pairwise fun a b => a.1 ≤ b.1 := by
    have := List.pairwise_mergeSort (le := fun a b : String × Entry S => decide (a.1 ≤ b.1))
      (by intro a b c h1 h2; simp only [decide_eq_true_eq] at *; exact le_trans h1 h2)
      (by intro a b; simp only [Bool.or_eq_true, decide_eq_true_eq]; exact le_total a.1 b.1) entries
    exact this.imp fun h => by simpa using h
  have hp := (List.mergeSort_perm entries fun a b => decide (a.1 ≤ b.1)).trans hperm
  exact List.Perm.eq_of_pairwise (fun a b ha hb h1 h2 => hinj a (hp.subset ha) b hb (le_antisymm h1 h2)) hm
    (hlt.imp fun h => le_of_lt h) hp

theorem files_append : ∀ (l m : List (FileOp S)) (d : Disk S) (p : List String),
    files d p (l ++ m) = files (files d p l).1 (files d p l).2 m := by
  intro l
  induction l with
  | nil => intro m d p; rfl
  | cons x l ih =>
    intro m d p
    cases x with
    | saved t a => exact ih m _ _
    | reloaded t => exact ih m _ _

theorem files_path : ∀ (saves : List (DateTime × S)) (d : Disk S) (p : List String),
    (files d p (saves.map fun x => .saved x.1 x.2)).2 = p := by
  intro saves
  induction saves with
  | nil => intro d p; rfl
  | cons x saves ih => intro d p; exact ih _ p

theorem Disk.makedirs_deeper (d : Disk S) : ∀ (p q : List String), p.length < q.length → (d.makedirs p) q = d q := by
  intro p
  induction p with
  | nil => intro q _; rfl
  | cons n p ih =>
    intro q hq
    have h1 : q ≠ n :: p := fun h => by rw [h] at hq; omega
    have h2 : q ≠ p := fun h => by rw [h] at hq; simp at hq
    unfold Disk.makedirs
    split
    · rfl
    · unfold Disk.add
      rw [Function.update_of_ne h1, Function.update_of_ne h2]
      exact ih q (by simp at hq; omega)

theorem Disk.save_deeper (d : Disk S) (p q : List String) (t : DateTime) (a : S) (h : p.length < q.length) :
    (d.save p t a) q = d q := by
  unfold Disk.save Disk.add
  rw [Function.update_of_ne (fun h' => by rw [h'] at h; omega)]
  exact d.makedirs_deeper p q h

theorem files_deeper : ∀ (saves : List (DateTime × S)) (d : Disk S) (p q : List String), p.length < q.length →
    (files d p (saves.map fun x => .saved x.1 x.2)).1 q = d q := by
  intro saves
  induction saves with
  | nil => intro d p q _; rfl
  | cons x saves ih =>
    intro d p q h
    exact (ih _ p q h).trans (d.save_deeper p q x.1 x.2 h)

/-- Saving in an existing directory changes no other one. -/
theorem files_other : ∀ (saves : List (DateTime × S)) (d : Disk S) (p q : List String) (l : List (String × Entry S)),
    d p = some l → q ≠ p → (files d p (saves.map fun x => .saved x.1 x.2)).1 q = d q := by
  intro saves
  induction saves with
  | nil => intro d p q l _ _; rfl
  | cons x saves ih =>
    intro d p q l hl hq
    refine (ih _ p q _ (d.save_at p x.1 x.2 hl) hq).trans ?_
    unfold Disk.save Disk.add
    rw [Function.update_of_ne hq]
    cases p with
    | nil => rfl
    | cons n p => unfold Disk.makedirs; rw [if_pos (by simp [hl])]

variable [DecidableEq γ]

theorem loadEntries_files (view : S → View γ κ ρ) (full : String → π) : ∀ (saves : List (DateTime × S)) (h : Hist γ κ ρ π),
    loadEntries view full h (entriesOf saves) =
      appendAll h (saves.map fun x => (view x.2, full (fileName ".hdf5" x.1))) := by
  intro saves
  induction saves with
  | nil => intro h; rfl
  | cons x saves ih =>
    intro h
    simp only [entriesOf, List.map_cons, loadEntries, appendAll]
    cases append h (view x.2) (full (fileName ".hdf5" x.1)) with
    | error e => rfl
    | ok h' => exact ih h'

theorem loadEntries_directory (view : S → View γ κ ρ) (full : String → π) {n : String} :
    ∀ (l : List (String × Entry S)) (h : Hist γ κ ρ π), (n, Entry.directory) ∈ l →
      ∃ e, loadEntries view full h l = .error e := by
  intro l
  induction l with
  | nil => intro h hm; simp at hm
  | cons x l ih =>
    intro h hm
    obtain ⟨m, e⟩ := x
    cases e with
    | directory => exact ⟨_, rfl⟩
    | file a =>
      have hm' : (n, Entry.directory) ∈ l := by simpa using hm
      unfold loadEntries
      split
      · exact ⟨_, rfl⟩
      · exact ih _ hm'

/-! ### Theorems -/

/-- **C140**, part: an autotuner that was not reloaded has saved its states in a new directory: however the operating system
lists the directory, `History(directory)` is the history to which the autotuner was appended after each save. -/
theorem load_directory_partial (view : S → View γ κ ρ) (full : String → π) (d : Disk S) (n : String) (p : List String)
    (hnew : d (n :: p) = none) (saves : List (DateTime × S)) (hne : saves ≠ []) (hvalid : ∀ x ∈ saves, Valid x.1)
    (hsorted : saves.Pairwise fun x y => Earlier x.1 y.1) :
    ∃ l, (files d (n :: p) (saves.map fun x => .saved x.1 x.2)).1 (n :: p) = some l ∧
      ∀ entries, entries.Perm l → loadDirectory view full entries =
        appendAll Hist.empty (saves.map fun x => (view x.2, full (fileName ".hdf5" x.1))) := by
  refine ⟨_, files_new saves hne d n p hnew, fun entries hp => ?_⟩
  unfold loadDirectory
  rw [sort_entries saves hvalid hsorted entries hp, loadEntries_files]

theorem appendAll_concat (h : Hist γ κ ρ π) (l : List (View γ κ ρ × π)) (a : View γ κ ρ) (p : π) :
    appendAll h (l ++ [(a, p)]) = match appendAll h l with
      | .error e => .error e
      | .ok h' => append h' a p := by
  induction l generalizing h with
  | nil =>
    simp only [List.nil_append, appendAll]
    split <;> simp_all
  | cons x l ih =>
    obtain ⟨b, q⟩ := x
    simp only [List.cons_append, appendAll]
    split
    · rfl
    · exact ih _

theorem iterate_saves {H : Autotuner.Hierarchy W X V P C} {s s' : Autotuner.State W X V}
    {evs : List (Autotuner.Event W V P)} (h : Autotuner.iterate H (.ok ()) s = (s', evs, .ok ())) :
    savedIn evs = [s'.snapshot] := by
  rcases iterate_cases h with ⟨v, x, -, -, rfl⟩ | ⟨w, x, b, -, -, -, -, -, rfl⟩ | ⟨w, v, p, -, -, -, -, -, rfl⟩ <;> rfl

theorem recorded_saves (R : Reader W γ κ ρ) (H : Autotuner.Hierarchy W X V P C) (path : Nat → π) (s₀ : Autotuner.State W X V) :
    ∀ (n : Nat) s h evs, recorded R H path s₀ n = .ok (s, h, evs) → (savedIn evs).length = n ∧
      appendAll Hist.empty ((savedIn evs).zipIdx.map fun x => (R.saved H x.1, path x.2)) = .ok h := by
  intro n
  induction n with
  | zero =>
    intro s h evs hr
    cases Except.ok.inj hr
    exact ⟨rfl, rfl⟩
  | succ n ih =>
    intro s h evs hr
    unfold recorded at hr
    split at hr
    · cases hr
    · rename_i s₁ h₁ evs₁ hr₁
      obtain ⟨i1, i2⟩ := ih _ _ _ hr₁
      split at hr
      · cases hr
      · rename_i s₂ evs₂ hit
        split at hr
        · cases hr
        · rename_i h₂ hap
          cases Except.ok.inj hr
          have hs : savedIn (evs₁ ++ evs₂) = savedIn evs₁ ++ [s.snapshot] := by
            unfold savedIn at *
            rw [List.filterMap_append]
            congr 1
            exact iterate_saves hit
          rw [hs]
          refine ⟨by simp [i1], ?_⟩
          rw [List.zipIdx_append, List.map_append]
          simp only [List.zipIdx_singleton, List.map_cons, List.map_nil]
          rw [appendAll_concat, i2]
          show append h₁ _ (path (0 + (savedIn evs₁).length)) = _
          rw [Nat.zero_add, i1]
          exact hap

/-- **C140**, part, for runs of the autotuner: after `m` calls of `iterate` at the times `time 0`, `time 1`, … the history
that is loaded from the new directory is the one that was recorded during the run. -/
theorem load_directory_run_partial (R : Reader W γ κ ρ) (H : Autotuner.Hierarchy W X V P C) (full : String → π)
    (time : Nat → DateTime) (hvalid : ∀ k, Valid (time k)) (htime : ∀ j k, j < k → Earlier (time j) (time k))
    (d : Disk (Autotuner.Snapshot W V)) (n : String) (p : List String) (hnew : d (n :: p) = none)
    (s₀ s : Autotuner.State W X V) (m : Nat) (hm : 0 < m) (h : Hist γ κ ρ π) (evs : List (Autotuner.Event W V P))
    (hr : recorded R H (fun k => full (fileName ".hdf5" (time k))) s₀ m = .ok (s, h, evs)) :
    ∃ l, (files d (n :: p) ((savedIn evs).zipIdx.map fun x => .saved (time x.2) x.1)).1 (n :: p) = some l ∧
      ∀ entries, entries.Perm l → loadDirectory (R.saved H) full entries = .ok h := by
  obtain ⟨h1, h2⟩ := recorded_saves R H _ s₀ m s h evs hr
  have hsaves : (savedIn evs).zipIdx.map (fun x => (FileOp.saved (time x.2) x.1 : FileOp (Autotuner.Snapshot W V))) =
      ((savedIn evs).zipIdx.map fun x => (time x.2, x.1)).map fun x => .saved x.1 x.2 := by
    rw [List.map_map]; rfl
  rw [hsaves]
  obtain ⟨l, hl, hload⟩ := load_directory_partial (R.saved H) full d n p hnew
    ((savedIn evs).zipIdx.map fun x => (time x.2, x.1))
    (by intro h0
        have := congrArg List.length h0
        simp [h1] at this
        omega)
    (by intro x hx
        obtain ⟨y, -, rfl⟩ := List.mem_map.1 hx
        exact hvalid _)
    (by rw [List.pairwise_map]
        have : ((savedIn evs).zipIdx.map Prod.snd).Pairwise (· < ·) := by
          rw [List.zipIdx_map_snd]
          exact List.pairwise_lt_range'
        rw [List.pairwise_map] at this
        exact this.imp fun h => htime _ _ h)
  refine ⟨l, hl, fun entries hp => ?_⟩
  rw [hload entries hp, List.map_map]
  exact h2

/-- **C140** is refuted for autotuners that were reloaded, whatever was saved before and is saved afterwards: the files after the
reload are in a new directory inside the old one, and loading the old one raises. -/
theorem load_directory_refuted (view : S → View γ κ ρ) (full : String → π) (d : Disk S) (n : String) (p : List String)
    (hnew : d (n :: p) = none) (before after : List (DateTime × S)) (hb : before ≠ []) (ha : after ≠ []) (t : DateTime)
    (hsub : d (timeString t :: n :: p) = none) :
    ∃ l l', (files d (n :: p) (before.map (fun x => .saved x.1 x.2) ++ .reloaded t :: after.map fun x => .saved x.1 x.2)).1
        (n :: p) = some l ∧
      (files d (n :: p) (before.map (fun x => .saved x.1 x.2) ++ .reloaded t :: after.map fun x => .saved x.1 x.2)).1
        (timeString t :: n :: p) = some l' ∧
      (∀ entries, entries.Perm l → ∃ e, loadDirectory view full entries = .error e) ∧ l' = entriesOf after := by
  obtain ⟨x, after', rfl⟩ : ∃ x m, after = x :: m := by
    cases after with
    | nil => exact absurd rfl ha
    | cons x m => exact ⟨x, m, rfl⟩
  have h1 := files_new before hb d n p hnew
  have h2 := files_deeper before d (n :: p) (timeString t :: n :: p) (by simp)
  rw [files_append, files_path]
  generalize (files d (n :: p) (before.map fun x => .saved x.1 x.2)).1 = d₁ at h1 h2 ⊢
  rw [hsub] at h2
  show ∃ l l', (files d₁ (timeString t :: n :: p) ((x :: after').map fun x => .saved x.1 x.2)).1 (n :: p) = some l ∧
    (files d₁ (timeString t :: n :: p) ((x :: after').map fun x => .saved x.1 x.2)).1 (timeString t :: n :: p) = some l' ∧ _
  have h3 := files_new (x :: after') ha d₁ (timeString t) (n :: p) h2
  have h4 : (d₁.save (timeString t :: n :: p) x.1 x.2) (n :: p) =
      some (entriesOf before ++ [(timeString t, .directory)]) := by
    have hne : n :: p ≠ timeString t :: n :: p := fun h => by simpa using congrArg List.length h
    have hm : d₁.makedirs (n :: p) = d₁ := by unfold Disk.makedirs; rw [if_pos (by simp [h1])]
    unfold Disk.save Disk.add
    rw [Function.update_of_ne hne]
    unfold Disk.makedirs
    rw [if_neg (by simp [h2]), Function.update_of_ne hne]
    unfold Disk.add
    rw [hm, Function.update_self, h1]
    rfl
  have h5 := files_other after' (d₁.save (timeString t :: n :: p) x.1 x.2) (timeString t :: n :: p) (n :: p) _
    (d₁.save_new (timeString t) (n :: p) x.1 x.2 h2) (fun h => by simpa using congrArg List.length h)
  refine ⟨_, _, h5.trans h4, h3, fun entries hp => ?_, rfl⟩
  refine loadEntries_directory (n := timeString t) view full _ _ ?_
  exact ((List.mergeSort_perm entries _).trans hp).symm.subset (by simp)

/-! ### Example -/

/-- A time in 2026. -/
def sampleTime (k : Nat) : DateTime := ⟨2026, 1, 1, 0, 0, 0, k⟩

/-- An autotuner that saved two states, was reloaded and saved another one. -/
example : ∃ l l', (files (fun p => if p = [] then some [] else none) ["tune"]
      [.saved (sampleTime 1) "a", .saved (sampleTime 2) "b", .reloaded (sampleTime 3), .saved (sampleTime 4) "c"]).1
        ["tune"] = some l ∧
    (files (fun p => if p = [] then some [] else none) ["tune"]
      [.saved (sampleTime 1) "a", .saved (sampleTime 2) "b", .reloaded (sampleTime 3), .saved (sampleTime 4) "c"]).1
        [timeString (sampleTime 3), "tune"] = some l' ∧
    (∀ entries, entries.Perm l → ∃ e, loadDirectory (π := String)
      (fun s => (⟨s, [[("x", 1)]], 0, false, true⟩ : View String String Nat)) id entries = .error e) ∧
    l' = entriesOf [(sampleTime 4, "c")] :=
  load_directory_refuted _ id (fun p => if p = [] then some [] else none) "tune" [] (by simp)
    [(sampleTime 1, "a"), (sampleTime 2, "b")] [(sampleTime 4, "c")] (by simp) (by simp) (sampleTime 3) (by simp)

example : ∃ l, (files (fun p => if p = [] then some [] else none) ["tune"]
      [.saved (sampleTime 1) "a", .saved (sampleTime 2) "b"]).1 ["tune"] = some l ∧
    ∀ entries, entries.Perm l → loadDirectory (π := String)
      (fun s => (⟨s, [[("x", 1)]], 0, false, true⟩ : View String String Nat)) id entries =
        appendAll Hist.empty [(⟨"a", [[("x", 1)]], 0, false, true⟩, fileName ".hdf5" (sampleTime 1)),
          (⟨"b", [[("x", 1)]], 0, false, true⟩, fileName ".hdf5" (sampleTime 2))] :=
  load_directory_partial (fun s => (⟨s, [[("x", 1)]], 0, false, true⟩ : View String String Nat)) id
    (fun p => if p = [] then some [] else none) "tune" [] (by simp)
    [(sampleTime 1, "a"), (sampleTime 2, "b")] (by simp)
    (by intro x hx
        simp only [List.mem_cons, List.not_mem_nil, or_false] at hx
        rcases hx with rfl | rfl <;> exact ⟨by simp [sampleTime], by simp [sampleTime], by simp [sampleTime],
          by simp [sampleTime], by simp [sampleTime], by simp [sampleTime], by simp [sampleTime], by simp [sampleTime]⟩)
    (by simp [Earlier, sampleTime])

end Qtune.History
