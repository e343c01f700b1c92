import Verif.Package.MatlabInstallModel

/-!
# C210: the command that installs the MATLAB engine
-/

namespace Qtune.Package.Engine

/-- The folder of the MATLAB that the user means: the given one, which has to exist, or, without one, that of the first program
that the system finds.  The program is in the subfolder `bin`. -/
def Meant (M : Machine) : Option Path → Path → Prop
  | some (a :: p), root => root = a :: p ∧ M.pathExists root = true
  | _, root => ∃ bytes dir prog rest, M.whereMatlab = .printed bytes ∧
      M.lines (M.codePage.getD "utf-8") bytes = .ok ((root ++ [dir, prog]) :: rest)

/-- The programs that the system finds are given with their folders. -/
def FullPaths (M : Machine) : Prop := ∀ enc bytes p rest, M.lines enc bytes = .ok (p :: rest) → 2 ≤ p.length

/-- The installer returns 0 only if the engine can be imported afterwards. -/
def Honest (M : Machine) : Prop := ∀ s d, (M.installer s d).1 = 0 → (M.installer s d).2 = .works

theorem two_last {p : Path} (h : 2 ≤ p.length) : ∃ dir prog, p = p.dropLast.dropLast ++ [dir, prog] := by
  obtain ⟨q, b, rfl⟩ : ∃ q b, p = q ++ [b] :=
    ⟨p.dropLast, p.getLast (by rintro rfl; simp at h), (List.dropLast_concat_getLast _).symm⟩
  obtain ⟨r, a, rfl⟩ : ∃ r a, q = r ++ [a] :=
    ⟨q.dropLast, q.getLast (by rintro rfl; simp at h), (List.dropLast_concat_getLast _).symm⟩
  exact ⟨a, b, by simp⟩

theorem finalize_ok {M : Machine} (hM : FullPaths M) {option : Option Path} {root : Path} :
    finalize M option = .ok root ↔ Meant M option root ∧ M.isFile (root ++ ["extern", "engines", "python", "setup.py"]) = true := by
  have hscript : ∀ r, installerScript r = r ++ ["extern", "engines", "python", "setup.py"] := fun r => by
    simp [installerScript, installerDir]
  have hfind : findRoot M = .ok root ↔ ∃ bytes dir prog rest, M.whereMatlab = .printed bytes ∧
      M.lines (M.codePage.getD "utf-8") bytes = .ok ((root ++ [dir, prog]) :: rest) := by
    unfold findRoot
    dsimp only
    split
    · rename_i h; simp [h]
    · rename_i h; simp [h]
    · rename_i bytes h
      split
      · rename_i e he; simp [h, he]
      · rename_i he; simp [h, he]
      · rename_i p rest he
        constructor
        · intro hr
          obtain ⟨dir, prog, hp⟩ := two_last (hM _ _ _ _ he)
          injection hr with hr
          rw [hr] at hp
          exact ⟨bytes, dir, prog, rest, h, by rw [he, hp]⟩
        · rintro ⟨bytes', dir, prog, rest', h', he'⟩
          rw [h] at h'
          injection h' with h'
          subst h'
          rw [he] at he'
          injection he' with he'
          injection he' with h1 h2
          subst h1
          simp
  have key : ∀ (r : Except PyErr Path) (P : Prop), (r = .ok root ↔ P) →
      ((match r with
        | .error e => .error e
        | .ok root => if M.isFile (installerScript root) then .ok root else .error .assertionError : Except PyErr Path) = .ok root ↔
      P ∧ M.isFile (root ++ ["extern", "engines", "python", "setup.py"]) = true) := by
    intro r P h
    rw [← h, ← hscript]
    cases r with
    | error e => simp
    | ok r' =>
      dsimp only
      constructor
      · intro h'
        split at h'
        · rename_i hf
          injection h' with h'
          subst h'
          exact ⟨rfl, hf⟩
        · cases h'
      · rintro ⟨h1, h2⟩
        injection h1 with h1
        subst h1
        rw [if_pos h2]
  unfold finalize
  apply key
  match option with
  | none => exact hfind
  | some [] => exact hfind
  | some (a :: p) =>
    simp only [Meant]
    constructor
    · intro h'
      split at h'
      · rename_i hf
        injection h' with h'
        subst h'
        exact ⟨rfl, hf⟩
      · cases h'
    · rintro ⟨h1, h2⟩
      subst h1
      rw [if_pos h2]

/-- **C210** (partial, see the refutations for what is missing): the command succeeds if and only if the folder of a MATLAB is given or found, there is an
installer in it and either the engine can be imported already or the installer returns 0. -/
theorem install_iff_partial (M : Machine) (hM : FullPaths M) (option : Option Path) :
    (installMatlab M option).2.2 = .ok () ↔
      ∃ root, Meant M option root ∧ M.isFile (root ++ ["extern", "engines", "python", "setup.py"]) = true ∧
        (M.engine = .works ∨ M.engine = .missing ∧
          (M.installer (root ++ ["extern", "engines", "python", "setup.py"]) (root ++ ["extern", "engines", "python"])).1 = 0) := by
  have hrun : ∀ root, (run M root).2.2 = .ok () ↔ (M.engine = .works ∨ M.engine = .missing ∧
      (M.installer (root ++ ["extern", "engines", "python", "setup.py"]) (root ++ ["extern", "engines", "python"])).1 = 0) := by
    intro root
    unfold run
    split
    · rename_i h; simp [h]
    · rename_i e h; simp [h]
    · rename_i h
      simp only [h, installerScript, installerDir, List.append_assoc, List.cons_append, List.nil_append, reduceCtorEq, false_or, true_and]
      split <;> simp_all
  unfold installMatlab
  constructor
  · intro h
    split at h
    · cases h
    · rename_i root hr
      obtain ⟨h1, h2⟩ := (finalize_ok hM).1 hr
      exact ⟨root, h1, h2, (hrun root).1 h⟩
  · rintro ⟨root, h1, h2, h3⟩
    rw [(finalize_ok hM).2 ⟨h1, h2⟩]
    exact (hrun root).2 h3

/-- **C210**: whatever happens, at most one process is started.  It is the installer of the MATLAB that is meant, in its own folder, and it is started
only if the engine cannot be imported; nothing else but the engine changes. -/
theorem installer_once (M : Machine) (hM : FullPaths M) (option : Option Path) :
    ((installMatlab M option).2.1 = [] ∧ (installMatlab M option).1 = M) ∨
    ∃ root, Meant M option root ∧ M.engine = .missing ∧
      (installMatlab M option).2.1 = [(root ++ ["extern", "engines", "python", "setup.py"], root ++ ["extern", "engines", "python"])] ∧
      (installMatlab M option).1 = { M with engine :=
        (M.installer (root ++ ["extern", "engines", "python", "setup.py"]) (root ++ ["extern", "engines", "python"])).2 } := by
  unfold installMatlab
  split
  · exact .inl ⟨rfl, rfl⟩
  · rename_i root hr
    obtain ⟨h1, h2⟩ := (finalize_ok hM).1 hr
    unfold run
    split
    · exact .inl ⟨rfl, rfl⟩
    · exact .inl ⟨rfl, rfl⟩
    · rename_i h
      exact .inr ⟨root, h1, h, by simp [installerScript, installerDir], by simp [installerScript, installerDir]⟩

/-- **C210** (partial: for installers whose return code can be trusted): after a command that succeeds the engine can be imported. -/
theorem install_works_partial (M : Machine) (hh : Honest M) (option : Option Path) (h : (installMatlab M option).2.2 = .ok ()) :
    (installMatlab M option).1.engine = .works := by
  unfold installMatlab at h ⊢
  split at h
  · cases h
  · unfold run at h ⊢
    split at h
    · rename_i h'; simpa using h'
    · cases h
    · dsimp only at h ⊢
      split at h
      · rename_i h0
        exact hh _ _ h0
      · cases h

/-- **C210** is false: the return code is the only thing that is looked at.  Whatever MATLAB is meant, if its installer returns 0 without installing anything,
the command succeeds and the engine is still missing. -/
theorem install_works_refuted (M : Machine) (hM : FullPaths M) (option : Option Path) (root : Path) (hroot : Meant M option root)
    (hfile : M.isFile (root ++ ["extern", "engines", "python", "setup.py"]) = true) (he : M.engine = .missing)
    (hi : ∀ s d, M.installer s d = (0, .missing)) :
    (installMatlab M option).2.2 = .ok () ∧ (installMatlab M option).1.engine = .missing := by
  unfold installMatlab
  rw [(finalize_ok hM).2 ⟨hroot, hfile⟩]
  simp [run, he, hi]

/-- **C210** is false for computers on which the engine is installed: MATLAB is looked for before this is checked, so that the command raises although there is
nothing to do, on every computer on which MATLAB is not found. -/
theorem installed_already_refuted (M : Machine) (hw : M.whereMatlab = .failed ∨ M.whereMatlab = .noCommand) (_he : M.engine = .works) :
    ∃ e, (installMatlab M none).2.2 = .error e := by
  rcases hw with hw | hw <;> simp [installMatlab, finalize, findRoot, hw]

/-- **C210** is false for computers that do not have the command `where`, which is one of Windows: whatever is installed, the exception is not the one that says
that MATLAB was not found. -/
theorem without_where_refuted (M : Machine) (hw : M.whereMatlab = .noCommand) :
    installMatlab M none = (M, [], .error fileNotFound) ∧ fileNotFound ≠ .runtimeError "Could not locate matlab" := by
  refine ⟨by simp [installMatlab, finalize, findRoot, hw], by simp [fileNotFound]⟩

/-- **C210** is false for computers with a code page whose number Python does not take for an encoding, such as 65001 for UTF-8: MATLAB is found, but the command
raises. -/
theorem code_page_refuted (M : Machine) (bytes : List Nat) (hw : M.whereMatlab = .printed bytes) (page : String) (hp : M.codePage = some page)
    (hl : ∀ b, M.lines page b = .error (.other 3)) :
    installMatlab M none = (M, [], .error (.other 3)) := by
  simp [installMatlab, finalize, findRoot, hw, hp, hl]

/-! ### Computers that meet the hypotheses -/

/-- MATLAB in `C:\MATLAB`, found by `where`, with an installer; the engine is missing. -/
def sampleMachine : Machine where
  engine := .missing
  codePage := some "850"
  whereMatlab := .printed [0]
  lines := fun enc _ => if enc = "850" then .ok [["C:", "MATLAB", "bin", "matlab.exe"]] else .error (.other 3)
  pathExists := fun p => p == ["C:", "MATLAB"]
  isFile := fun p => p == ["C:", "MATLAB", "extern", "engines", "python", "setup.py"]
  installer := fun _ _ => (0, .works)

theorem sample_full : FullPaths sampleMachine := by
  intro enc bytes p rest h
  simp only [sampleMachine] at h
  split at h
  · injection h with h
    injection h with h1 h2
    rw [← h1]
    decide
  · cases h

example : FullPaths sampleMachine ∧ Honest sampleMachine ∧ Meant sampleMachine none ["C:", "MATLAB"] ∧
    Meant sampleMachine (some ["C:", "MATLAB"]) ["C:", "MATLAB"] ∧ (installMatlab sampleMachine none).2.2 = .ok () ∧
    (installMatlab sampleMachine none).1.engine = .works :=
  ⟨sample_full, fun _ _ _ => rfl, ⟨[0], "bin", "matlab.exe", [], rfl, rfl⟩, ⟨rfl, rfl⟩, rfl, rfl⟩

example : FullPaths { sampleMachine with installer := fun _ _ => (0, .missing) } ∧
    Meant { sampleMachine with installer := fun _ _ => (0, .missing) } none ["C:", "MATLAB"] :=
  ⟨sample_full, [0], "bin", "matlab.exe", [], rfl, rfl⟩

example : ∃ e, (installMatlab { sampleMachine with codePage := some "65001" } none).2.2 = .error e := ⟨_, rfl⟩

end Qtune.Package.Engine
