import Verif.Package.ReleaseSpec
import Mathlib.Tactic.ByContra
import Mathlib.Data.List.Basic

/-!
# C211: the version of the distribution is the version of the package
-/

namespace Qtune.Package.Release

theorem search_false_line {w : List Char} (hw : '\n' ∉ w) (r : List Char) : search false (w ++ '\n' :: r) = search true r := by
  induction w with
  | nil => rfl
  | cons c w ih =>
    rw [List.mem_cons, not_or] at hw
    have : (c == '\n') = false := by simpa using fun h : c = '\n' => hw.1 h.symm
    simp only [List.cons_append, search, this, Bool.false_eq_true, if_false]
    exact ih hw.2

theorem search_line {w : List Char} (hw : '\n' ∉ w) (r : List Char) (h : matchHere (w ++ '\n' :: r) = none) :
    search true (w ++ '\n' :: r) = search true r := by
  cases w with
  | nil => simp only [List.nil_append] at h ⊢; simp [search, h]
  | cons c w =>
    rw [List.mem_cons, not_or] at hw
    have : (c == '\n') = false := by simpa using fun h : c = '\n' => hw.1 h.symm
    simp only [List.cons_append] at h
    simp only [List.cons_append, search, this, if_true, h]
    exact search_false_line hw.2 r

theorem search_found {s v : List Char} (h : matchHere s = some v) : search true s = some v := by
  cases s with
  | nil => simp [matchHere, word] at h
  | cons c s => simp [search, h]

theorem prefix_before {c : Char} {p : List Char} (hc : c ∉ p) : ∀ {u r : List Char}, p <+: u ++ c :: r → p <+: u := by
  induction p with
  | nil => intros; exact List.nil_prefix
  | cons d p ih =>
    intro u r h
    rw [List.mem_cons, not_or] at hc
    cases u with
    | nil =>
      rw [List.nil_append, List.cons_prefix_cons] at h
      exact absurd h.1.symm hc.1
    | cons e u =>
      rw [List.cons_append, List.cons_prefix_cons] at h
      rw [List.cons_prefix_cons]
      exact ⟨h.1, ih hc.2 h.2⟩

theorem not_here {s : List Char} (h : ¬ word <+: s) : matchHere s = none := by simp [matchHere, h]

theorem search_skip {b : Bool} {c : Char} {s : List Char} (h : b = true → matchHere (c :: s) = none) :
    search b (c :: s) = search (c == '\n') s := by
  cases b with
  | false => simp [search]
  | true => simp [search, h rfl]

theorem search_doc (r : List Char) : ∀ (t : List Char) (b : Bool), (b = true → ¬ word <+: t) →
    (∀ a c, t = a ++ '\n' :: c → ¬ word <+: c) → search b (t ++ '"' :: '"' :: '"' :: '\n' :: r) = search true r := by
  intro t
  induction t with
  | nil =>
    intro b _ _
    rw [List.nil_append, search_skip (fun _ => not_here (by simp [word]))]
    rfl
  | cons c t ih =>
    intro b hb hlines
    have hskip : b = true → matchHere (c :: (t ++ '"' :: '"' :: '"' :: '\n' :: r)) = none := fun h =>
      not_here fun hp => hb h (prefix_before (c := '"') (u := c :: t) (by decide) hp)
    rw [List.cons_append, search_skip hskip]
    refine ih _ (fun h => hlines [] t ?_) fun a d hd => hlines (c :: a) d (by rw [hd]; rfl)
    rw [beq_iff_eq.1 h]
    rfl

theorem tail_none {c : Char} (hc : isSpace c = false) (s : List Char) : matchTail (c :: s) = none := by
  rcases s with _ | ⟨x1, _ | ⟨x2, _ | ⟨x3, s⟩⟩⟩
  · rfl
  · rfl
  · rfl
  · simp [matchTail, hc]

theorem alphanum_not_space {c : Char} (h : c.isAlphanum ∨ c = '_') : isSpace c = false := by
  rcases h with h | rfl
  · simp only [Char.isAlphanum, Char.isAlpha, Char.isUpper, Char.isLower, Char.isDigit, Bool.or_eq_true, Bool.and_eq_true, decide_eq_true_eq,
      UInt32.le_iff_toNat_le] at h
    have h' : (65 ≤ c.toNat ∧ c.toNat ≤ 90 ∨ 97 ≤ c.toNat ∧ c.toNat ≤ 122) ∨ 48 ≤ c.toNat ∧ c.toNat ≤ 57 := h
    simp only [isSpace]
    rw [Bool.eq_false_iff]
    simp only [ne_eq, Bool.or_eq_true, Bool.and_eq_true, decide_eq_true_eq, beq_iff_eq]
    omega
  · rfl

theorem alphanum_ne {c d : Char} (hd : d.isAlphanum = false) (hu : d ≠ '_') (h : c.isAlphanum ∨ c = '_') : c ≠ d := by
  rintro rfl
  rcases h with h | h
  · rw [hd] at h; cases h
  · exact hu h

/-- Behind a name there is a space or an equals sign: the pattern does not match at an assignment to another name. -/
theorem other_name {name rest : List Char} {d : Char} (hd : d = ' ' ∨ d = '=') (hne : name ≠ word) (hname : ∀ c ∈ name, c.isAlphanum ∨ c = '_') :
    matchHere (name ++ d :: rest) = none := by
  by_cases hp : word <+: name ++ d :: rest
  · have hp' := prefix_before (by rcases hd with rfl | rfl <;> decide) hp
    obtain ⟨x, rfl⟩ := hp'
    cases x with
    | nil => simp at hne
    | cons c x =>
      have hc := alphanum_not_space (hname c (by simp))
      rw [matchHere, if_pos hp, List.append_assoc, List.drop_left]
      exact tail_none hc _
  · exact not_here hp

theorem without_spaces {rest : List Char} : matchHere (word ++ '=' :: rest) = none := by
  rw [matchHere, if_pos (List.prefix_append _ _), List.drop_left]
  exact tail_none (by decide) _

/-- At an assignment with spaces the group is the value up to its first quote. -/
theorem with_spaces {q d : Char} {v r : List Char} (hq : q = '\'' ∨ q = '"') (hd : d = '\'' ∨ d = '"') (hv : ∀ c ∈ v, isQuote c = false) :
    matchHere (word ++ ' ' :: '=' :: ' ' :: q :: (v ++ d :: r)) = some v := by
  have h1 : isQuote q = true := by rcases hq with rfl | rfl <;> rfl
  have h2 : isQuote d = true := by rcases hd with rfl | rfl <;> rfl
  have h3 : List.dropWhile (fun c => !isQuote c) (v ++ d :: r) = d :: r := by
    rw [List.dropWhile_append_of_pos (fun c hc => by rw [hv c hc]; rfl), List.dropWhile_cons, if_neg (by rw [h2]; decide)]
  have h4 : List.takeWhile (fun c => !isQuote c) (v ++ d :: r) = v := by
    rw [List.takeWhile_append_of_pos (fun c hc => by rw [hv c hc]; rfl), List.takeWhile_cons, if_neg (by rw [h2]; decide), List.append_nil]
  rw [matchHere, if_pos (List.prefix_append _ _), List.drop_left]
  simp [matchTail, h1, h3, h4, show isSpace ' ' = true from rfl]

theorem word_eq : "__version__".toList = word := by decide

/-- A statement that does not assign to `__version__` with spaces is passed over. -/
theorem search_stmt {s : Stmt} (hs : s.Correct) (hdoc : ∀ t, s = .doc t → ¬ LineBegins "__version__".toList t)
    (hassign : ∀ q v, s ≠ .assign true "__version__".toList q v) (r : List Char) : search true (s.text ++ r) = search true r := by
  rw [word_eq] at hdoc hassign
  cases s with
  | doc t =>
    have := search_doc r t false (by simp) fun a c h hp => hdoc t rfl (by
      obtain ⟨b, rfl⟩ := hp
      exact ⟨a, b, h⟩)
    simp only [Stmt.text, List.cons_append, List.append_assoc, List.nil_append]
    rw [search_skip (fun _ => not_here (by simp [word])), search_skip (fun _ => not_here (by simp [word])),
      search_skip (fun _ => not_here (by simp [word]))]
    exact this
  | comment t =>
    have := search_line (w := '#' :: t) (by simpa [Stmt.Correct] using hs) r (not_here (by simp [word]))
    simpa [Stmt.text] using this
  | assign sp name q v =>
    obtain ⟨-, hname, hq, -, -, hnl⟩ := hs
    have hnn : '\n' ∉ name := fun h => alphanum_ne (d := '\n') (by decide) (by decide) (hname _ h) rfl
    have hqn : q ≠ '\n' := by rcases hq with rfl | rfl <;> decide
    have hline := search_line (w := name ++ ((if sp = true then [' ', '=', ' '] else ['=']) ++ q :: (v ++ [q])))
      (by cases sp <;> simp [hnn, hnl, Ne.symm hqn]) r (by
        cases sp with
        | true =>
          have : name ≠ word := fun h => hassign q v (by rw [h])
          simpa using other_name (d := ' ') (.inl rfl) this hname
        | false =>
          by_cases h : name = word
          · rw [h]; simpa using without_spaces
          · simpa using other_name (d := '=') (.inr rfl) h hname)
    simpa [Stmt.text] using hline

/-- **C211** (partial): setuptools gets the version that the package reports, if `__version__` is assigned with one space on both sides of the equals sign, if it
is not assigned different values, if the value contains no quotes and if no text in three quotes contains a line that begins with `__version__`. -/
theorem release_version_partial (p : List Stmt) (hp : ∀ s ∈ p, s.Correct) (hdoc : ∀ t, .doc t ∈ p → ¬ LineBegins "__version__".toList t)
    {v : List Char} (hv : '\'' ∉ v ∧ '"' ∉ v) (hassign : ∀ sp q u, Stmt.assign sp "__version__".toList q u ∈ p → sp = true ∧ u = v)
    (h : imported p = some v) : getVersion (source p) = .ok v := by
  suffices search true (source p) = some v by simp [getVersion, this]
  induction p with
  | nil => simp [imported] at h
  | cons s p ih =>
    have hsrc : source (s :: p) = s.text ++ source p := by simp [source]
    by_cases hs : ∃ q u, s = .assign true "__version__".toList q u
    · obtain ⟨q, u, rfl⟩ := hs
      obtain ⟨-, rfl⟩ := hassign _ _ _ (List.mem_cons_self ..)
      have hc := hp _ (List.mem_cons_self ..)
      have := with_spaces (q := q) (d := q) (v := u) (r := '\n' :: source p) hc.2.2.1 hc.2.2.1 (fun c hcu => by
        simp only [isQuote, Bool.or_eq_false_iff, beq_eq_false_iff_ne]
        exact ⟨fun e => hv.1 (e ▸ hcu), fun e => hv.2 (e ▸ hcu)⟩)
      rw [hsrc]
      refine search_found ?_
      rw [Stmt.text, word_eq]
      simpa using this
    · rw [hsrc, search_stmt (hp _ (List.mem_cons_self ..)) (fun t ht => hdoc t (ht ▸ List.mem_cons_self ..))
        (fun q u e => hs ⟨q, u, e⟩)]
      refine ih (fun s hs => hp s (List.mem_cons_of_mem _ hs)) (fun t ht => hdoc t (List.mem_cons_of_mem _ ht))
        (fun sp q u hm => hassign sp q u (List.mem_cons_of_mem _ hm)) ?_
      rw [imported] at h
      cases hi : imported p with
      | some w => rw [hi] at h; exact h
      | none =>
        rw [hi] at h
        cases s with
        | doc t => simp [Stmt.gives] at h
        | comment t => simp [Stmt.gives] at h
        | assign sp name q u =>
          exfalso
          by_cases hn : name = "__version__".toList
          · subst hn
            obtain ⟨rfl, rfl⟩ := hassign sp q u (List.mem_cons_self ..)
            exact hs ⟨q, u, rfl⟩
          · rw [Stmt.gives, if_neg hn] at h
            cases h

/-- **C211**: a package without a version is not built. -/
theorem no_version_no_release (p : List Stmt) (hp : ∀ s ∈ p, s.Correct) (hdoc : ∀ t, .doc t ∈ p → ¬ LineBegins "__version__".toList t)
    (h : imported p = none) : ∃ msg, getVersion (source p) = .error (.runtimeError msg) := by
  suffices search true (source p) = none by simp [getVersion, this]
  induction p with
  | nil => simp [source, search]
  | cons s p ih =>
    have hsrc : source (s :: p) = s.text ++ source p := by simp [source]
    rw [imported] at h
    cases hi : imported p with
    | some w => rw [hi] at h; cases h
    | none =>
      rw [hi] at h
      rw [hsrc, search_stmt (hp _ (List.mem_cons_self ..)) (fun t ht => hdoc t (ht ▸ List.mem_cons_self ..))
        (fun q u e => by subst e; simp [Stmt.gives] at h)]
      exact ih (fun s hs => hp s (List.mem_cons_of_mem _ hs)) (fun t ht => hdoc t (List.mem_cons_of_mem _ ht)) hi

/-- **C211** is false: without spaces around the equals sign, which Python does not care about, no version is found and nothing can be installed. -/
theorem without_spaces_refuted (p : List Stmt) (hp : ∀ s ∈ p, s.Correct) (hdoc : ∀ t, .doc t ∈ p → ¬ LineBegins "__version__".toList t)
    (h : ∀ q u, Stmt.assign true "__version__".toList q u ∉ p) : ∃ msg, getVersion (source p) = .error (.runtimeError msg) := by
  suffices search true (source p) = none by simp [getVersion, this]
  induction p with
  | nil => simp [source, search]
  | cons s p ih =>
    have hsrc : source (s :: p) = s.text ++ source p := by simp [source]
    rw [hsrc, search_stmt (hp _ (List.mem_cons_self ..)) (fun t ht => hdoc t (ht ▸ List.mem_cons_self ..))
      (fun q u e => h q u (e ▸ List.mem_cons_self ..))]
    exact ih (fun s hs => hp s (List.mem_cons_of_mem _ hs)) (fun t ht => hdoc t (List.mem_cons_of_mem _ ht))
      fun q u hm => h q u (List.mem_cons_of_mem _ hm)

/-- **C211** is false: setuptools gets the first value that is assigned, the package reports the last one. -/
theorem assigned_twice_refuted (v w : List Char) (hv : '\'' ∉ v ∧ '"' ∉ v) :
    let p := [Stmt.assign true "__version__".toList '\'' v, .assign true "__version__".toList '\'' w]
    getVersion (source p) = .ok v ∧ imported p = some w := by
  refine ⟨?_, by simp [imported, Stmt.gives]⟩
  have := with_spaces (q := '\'') (d := '\'') (v := v)
    (r := '\n' :: source [Stmt.assign true "__version__".toList '\'' w]) (.inl rfl) (.inl rfl) (fun c hc => by
      simp only [isQuote, Bool.or_eq_false_iff, beq_eq_false_iff_ne]
      exact ⟨fun e => hv.1 (e ▸ hc), fun e => hv.2 (e ▸ hc)⟩)
  suffices h : search true (source [Stmt.assign true "__version__".toList '\'' v, .assign true "__version__".toList '\'' w]) = some v by
    simp only [getVersion, h]
  refine search_found ?_
  rw [← this]
  congr 1
  simp [source, Stmt.text, word_eq]

/-- **C211** is false: a value in one kind of quotes that contains the other kind is cut there. -/
theorem quote_refuted (v w : List Char) (hv : '\'' ∉ v ∧ '"' ∉ v) :
    let p := [Stmt.assign true "__version__".toList '"' (v ++ '\'' :: w)]
    getVersion (source p) = .ok v ∧ imported p = some (v ++ '\'' :: w) := by
  refine ⟨?_, by simp [imported, Stmt.gives]⟩
  have := with_spaces (q := '"') (d := '\'') (v := v) (r := w ++ ['"', '\n']) (.inr rfl) (.inl rfl) (fun c hc => by
      simp only [isQuote, Bool.or_eq_false_iff, beq_eq_false_iff_ne]
      exact ⟨fun e => hv.1 (e ▸ hc), fun e => hv.2 (e ▸ hc)⟩)
  suffices h : search true (source [Stmt.assign true "__version__".toList '"' (v ++ '\'' :: w)]) = some v by
    simp only [getVersion, h]
  refine search_found ?_
  rw [← this]
  congr 1
  simp [source, Stmt.text, word_eq]

/-- **C211** is false: an assignment that is quoted in a text in three quotes is taken for the assignment. -/
theorem doc_refuted (t v w : List Char) (ht : '\n' ∉ t) (hv : '\'' ∉ v ∧ '"' ∉ v) :
    let p := [Stmt.doc (t ++ '\n' :: (Stmt.assign true "__version__".toList '\'' v).text), .assign true "__version__".toList '\'' w]
    getVersion (source p) = .ok v ∧ imported p = some w := by
  refine ⟨?_, by simp [imported, Stmt.gives]⟩
  have := with_spaces (q := '\'') (d := '\'') (v := v)
    (r := '\n' :: '"' :: '"' :: '"' :: '\n' :: source [Stmt.assign true "__version__".toList '\'' w]) (.inl rfl) (.inl rfl) (fun c hc => by
      simp only [isQuote, Bool.or_eq_false_iff, beq_eq_false_iff_ne]
      exact ⟨fun e => hv.1 (e ▸ hc), fun e => hv.2 (e ▸ hc)⟩)
  suffices h : search true (source [Stmt.doc (t ++ '\n' :: (Stmt.assign true "__version__".toList '\'' v).text),
      .assign true "__version__".toList '\'' w]) = some v by
    simp only [getVersion, h]
  have h := search_line (w := '"' :: '"' :: '"' :: t) (by simpa using ht) _ (not_here (by simp [word])) |>.trans (search_found this)
  rw [← h]
  congr 1
  simp [source, Stmt.text, word_eq]

/-- The file qtune/__init__.py. -/
def initFile : List Stmt :=
  [.doc "Quantum dot auto tune framework".toList, .assign true "__version__".toList '\'' "0.1.0".toList,
    .assign true "__license__".toList '"' "GNU GPLv3+".toList]

example : (∀ s ∈ initFile, s.Correct) ∧ (∀ t, .doc t ∈ initFile → ¬ LineBegins "__version__".toList t) ∧ imported initFile = some "0.1.0".toList ∧
    getVersion (source initFile) = .ok "0.1.0".toList ∧ (∀ sp q u, Stmt.assign sp "__version__".toList q u ∈ initFile → sp = true ∧ u = "0.1.0".toList) := by
  refine ⟨?_, ?_, by decide, by decide, ?_⟩
  · intro s hs
    simp only [initFile, List.mem_cons, List.not_mem_nil, or_false] at hs
    rcases hs with rfl | rfl | rfl <;> simp only [Stmt.Correct] <;> decide +kernel
  · intro t ht
    obtain rfl : t = "Quantum dot auto tune framework".toList := by simpa [initFile] using ht
    rintro ⟨a, b, h⟩
    have : '\n' ∈ "Quantum dot auto tune framework".toList := by rw [h]; simp
    revert this
    decide +kernel
  · intro sp q u h
    simp only [initFile, List.mem_cons, Stmt.assign.injEq, reduceCtorEq, false_or, List.not_mem_nil, or_false] at h
    rcases h with ⟨rfl, -, -, rfl⟩ | ⟨-, h, -⟩
    · exact ⟨rfl, rfl⟩
    · exact absurd h (by decide)

/-- A file without spaces. -/
example : (∀ s ∈ [Stmt.assign false "__version__".toList '\'' "0.2".toList], s.Correct) ∧
    imported [Stmt.assign false "__version__".toList '\'' "0.2".toList] = some "0.2".toList := by
  refine ⟨?_, by decide⟩
  intro s hs
  rw [List.mem_singleton] at hs
  subst hs
  simp only [Stmt.Correct]
  decide +kernel

end Qtune.Package.Release
