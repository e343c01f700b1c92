import Verif.History.ReadModel

/-! # C189, C190: reading files and evaluating stored data again -/

namespace Qtune.History.Read

variable {V M : Type}

/-- The entries of files which a reader wants: those of all files whose names do not begin with `#`. -/
def Wanted (disk : String → Except PyErr (List (String × Except PyErr V))) (names : List String) (k : String) (v : V) : Prop :=
  ∃ n ∈ names, ∃ es, disk n = .ok es ∧ (k, .ok v) ∈ es ∧ k.toList.head? ≠ some '#'

theorem readEntries_mem {es : List (String × Except PyErr V)} {l : List (String × V)} (h : readEntries es = .ok l) (k : String) (v : V) :
    (k, v) ∈ l ↔ (k, .ok v) ∈ es ∧ k.toList.head? ≠ some '#' := by
  induction es generalizing l with
  | nil => simp only [readEntries, Except.ok.injEq] at h; subst h; simp
  | cons e es ih =>
    obtain ⟨k', v'⟩ := e
    simp only [readEntries] at h
    split at h
    · rename_i hk
      rw [ih h]
      constructor
      · exact fun ⟨a, b⟩ => ⟨List.mem_cons_of_mem _ a, b⟩
      · rintro ⟨a, b⟩
        rcases List.mem_cons.1 a with h1 | h1
        · simp only [Prod.mk.injEq] at h1; rw [h1.1] at b; exact absurd hk b
        · exact ⟨h1, b⟩
    · rename_i hk
      cases v' with
      | error e => simp at h
      | ok v' =>
        simp only at h
        cases hr : readEntries es with
        | error e => rw [hr] at h; simp at h
        | ok l' =>
          rw [hr] at h
          simp only [Except.ok.injEq] at h
          subst h
          simp only [List.mem_cons, Prod.mk.injEq, ih hr, Except.ok.injEq]
          constructor
          · rintro (⟨rfl, rfl⟩ | ⟨a, b⟩)
            · exact ⟨Or.inl ⟨rfl, rfl⟩, hk⟩
            · exact ⟨Or.inr a, b⟩
          · rintro ⟨h1 | h1, b⟩
            · exact Or.inl h1
            · exact Or.inr ⟨h1, b⟩

theorem readAll_mem (disk : String → Except PyErr (List (String × Except PyErr V))) {names : List String} {l : List (String × V)}
    (h : readAll disk names = .ok l) (k : String) (v : V) : (k, v) ∈ l ↔ Wanted disk names k v := by
  induction names generalizing l with
  | nil => simp only [readAll, Except.ok.injEq] at h; subst h; simp [Wanted]
  | cons n ns ih =>
    simp only [readAll] at h
    cases hd : disk n with
    | error e => rw [hd] at h; simp at h
    | ok es =>
      rw [hd] at h; simp only at h
      cases hr : readEntries es with
      | error e => rw [hr] at h; simp at h
      | ok l1 =>
        rw [hr] at h; simp only at h
        cases ha : readAll disk ns with
        | error e => rw [ha] at h; simp at h
        | ok l2 =>
          rw [ha] at h
          simp only [Except.ok.injEq] at h
          subst h
          rw [List.mem_append, readEntries_mem hr, ih ha]
          constructor
          · rintro (h | ⟨m, hm, h⟩)
            · exact ⟨n, by simp, es, hd, h⟩
            · exact ⟨m, by simp [hm], h⟩
          · rintro ⟨m, hm, es', h1, h2⟩
            rcases List.mem_cons.1 hm with rfl | hm
            · rw [hd] at h1; simp only [Except.ok.injEq] at h1; subst h1; exact Or.inl h2
            · exact Or.inr ⟨m, hm, es', h1, h2⟩

/-- Whatever the files contain: `read_files` raises or returns `None`, never the entries. -/
theorem read_files_refuted (disk : String → Except PyErr (List (String × Except PyErr V))) (files : Files) (data : List (String × V)) :
    readFiles disk files ≠ .ok (some data) := by
  simp only [readFiles, listSort]
  split <;> simp

/-- If it does not raise, then all files could be opened and all objects in them whose names do not begin with `#` could be built. -/
theorem read_files_checks_partial (disk : String → Except PyErr (List (String × Except PyErr V))) (files : Files) (r : Option (List (String × V)))
    (h : readFiles disk files = .ok r) (n : String) (hn : files = .one n ∨ ∃ names, files = .many names ∧ n ∈ names) :
    ∃ es, disk n = .ok es ∧ ∀ k e, (k, .error e) ∈ es → k.toList.head? = some '#' := by
  replace hn : n ∈ files.toList := by
    rcases hn with rfl | ⟨l, rfl, hn⟩
    · exact List.mem_singleton.2 rfl
    · exact hn
  have main : ∀ (ns : List String) (l : List (String × V)), readAll disk ns = .ok l → n ∈ ns →
      ∃ es, disk n = .ok es ∧ ∀ k e, (k, .error e) ∈ es → k.toList.head? = some '#' := by
    intro ns
    induction ns with
    | nil => simp
    | cons m ns ih =>
      intro l h hn
      simp only [readAll] at h
      cases hd : disk m with
      | error e => rw [hd] at h; simp at h
      | ok es =>
        rw [hd] at h; simp only at h
        cases hr : readEntries es with
        | error e => rw [hr] at h; simp at h
        | ok l1 =>
          rw [hr] at h; simp only at h
          cases ha : readAll disk ns with
          | error e => rw [ha] at h; simp at h
          | ok l2 =>
            rcases List.mem_cons.1 hn with rfl | hn
            · refine ⟨es, hd, ?_⟩
              clear h hd ha ih
              induction es generalizing l1 with
              | nil => simp
              | cons e es ih =>
                obtain ⟨k', v'⟩ := e
                intro k e hk
                simp only [readEntries] at hr
                split at hr
                · rename_i hh
                  rcases List.mem_cons.1 hk with h1 | h1
                  · simp only [Prod.mk.injEq] at h1; rw [h1.1]; exact hh
                  · exact ih _ hr k e h1
                · cases v' with
                  | error e => simp at hr
                  | ok v' =>
                    simp only at hr
                    cases hr' : readEntries es with
                    | error e => rw [hr'] at hr; simp at hr
                    | ok l' =>
                      rcases List.mem_cons.1 hk with h1 | h1
                      · simp at h1
                      · exact ih _ hr' k e h1
            · exact ih l2 ha hn
  simp only [readFiles] at h
  cases hr : readAll disk files.toList with
  | error e => rw [hr] at h; simp at h
  | ok l => exact main _ l hr hn

/-- The list that `read_files` sorts and does not return has exactly the wanted entries, in the order of their names. -/
theorem sorted_list_is_wanted_partial (disk : String → Except PyErr (List (String × Except PyErr V))) (names : List String) (data : List (String × V))
    (h : readAll disk names = .ok data) :
    (∀ k v, (k, v) ∈ (listSort data).1 ↔ Wanted disk names k v) ∧ ((listSort data).1).Pairwise (fun a b => a.1 ≤ b.1) := by
  refine ⟨fun k v => ?_, ?_⟩
  · rw [← readAll_mem disk h]; exact (List.perm_insertionSort _ _).mem_iff
  · haveI : Std.Total (fun a b : String × V => a.1 ≤ b.1) := ⟨fun a b => le_total _ _⟩
    haveI : IsTrans (String × V) (fun a b => a.1 ≤ b.1) := ⟨fun a b c h1 h2 => le_trans h1 h2⟩
    exact List.pairwise_insertionSort _ _

/-- For at least one row, whatever the history contains: `reevaluate_data_with_matlab` raises before anything is measured. -/
theorem reevaluate_refuted (column : Option (List (Cell V))) (measure : Nat → M) (i : Int) (is : List Int) :
    (reevaluate column measure (i :: is) []).1 = [] ∧ ∃ e, (reevaluate column measure (i :: is) []).2 = .error e := by
  cases column with
  | none => exact ⟨rfl, _, rfl⟩
  | some l =>
    simp only [reevaluate]
    cases iloc l i with
    | error e => exact ⟨rfl, _, rfl⟩
    | ok c => cases c <;> simp [Cell.attr, floatAttrs, dictAttrs]

/-- It is an `AttributeError` also if evaluator and row exist; rows can be counted from the end, with negative numbers. -/
theorem reevaluate_existing_refuted (l : List (Cell V)) (measure : Nat → M) (i : Int) (hi : -l.length ≤ i ∧ i < l.length) (is : List Int) :
    reevaluate (some l) measure (i :: is) [] = ([], .error .attributeError) := by
  obtain ⟨c, hc⟩ : ∃ c, iloc l i = .ok c := by
    by_cases h0 : 0 ≤ i
    · have h1 : i.toNat < l.length := by omega
      exact ⟨l[i.toNat], by simp [iloc, h0, h1]⟩
    · have h1 : (l.length + i).toNat < l.length := by omega
      have h2 : -i ≤ (l.length : Int) := by omega
      exact ⟨l[(l.length + i).toNat], by simp [iloc, h0, h2, List.getElem?_eq_getElem h1]⟩
  simp only [reevaluate, hc]
  cases c <;> simp [Cell.attr, floatAttrs, dictAttrs]

/-- Unknown evaluators and rows are reported, and no rows give an empty list. -/
theorem reevaluate_unknown_partial (measure : Nat → M) (i : Int) (is : List Int) (l : List (Cell V)) (hi : (l.length : Int) ≤ i ∨ i < -l.length) :
    reevaluate (none : Option (List (Cell V))) measure (i :: is) [] = ([], .error .keyError) ∧
      reevaluate (some l) measure (i :: is) [] = ([], .error .indexError) ∧
      ∀ c : Option (List (Cell V)), reevaluate c measure [] [] = ([], .ok []) := by
  refine ⟨rfl, ?_, fun _ => rfl⟩
  have : iloc l i = .error .indexError := by
    rcases hi with hi | hi
    · have h0 : 0 ≤ i := by omega
      have : l[i.toNat]? = none := List.getElem?_eq_none (by omega)
      simp [iloc, h0, this]
    · have h0 : ¬ 0 ≤ i := by omega
      have h1 : ¬ (-i ≤ (l.length : Int)) := by omega
      simp [iloc, h0, h1]
  simp only [reevaluate, this]

/-- A file with one entry: `None` is returned, although there is an entry. -/
example : readFiles (fun n => if n = "a.hdf5" then .ok [("autotuner", .ok 1), ("#version", .error .keyError)] else .error (.other 0)) (.one "a.hdf5") =
    .ok (none : Option (List (String × Nat))) ∧
    Wanted (fun n => if n = "a.hdf5" then .ok [("autotuner", .ok 1), ("#version", .error .keyError)] else .error (.other 0)) ["a.hdf5"] "autotuner" 1 :=
  ⟨by decide, "a.hdf5", by simp, _, if_pos rfl, by simp, by decide⟩

example : reevaluate (some [.nan, .record [("measurements", 3)]]) (fun k => k) [1] [] = ([], .error .attributeError) :=
  reevaluate_existing_refuted _ _ 1 (by decide) []

end Qtune.History.Read
