import Verif.Package.VersionModel
import Mathlib.Data.List.Basic

/-!
# The version that a file names (C193)
-/

namespace Qtune.Version

/-- The text that names the version `base` at the commit `c`. -/
def named (base : String) (c : Commit) : String := base ++ "+" ++ toString c.time ++ "+" ++ c.hash

/-- The package belongs to the commit `c` while the version is determined. -/
def PackageAt (m : Machine) (c : Commit) : Prop := m.gitDir = true ∧ ∀ i, m.package i = some c

/-- **C193** (partial): a file gets the version and the commit of the package if GitPython is installed, or if the working directory belongs to the repository
of the package and `git` answers in time. -/
theorem version_partial (base : String) (m : Machine) (c : Commit) (name : String) (f : File) (hf : "#version" ∉ f.members)
    (hc : PackageAt m c) (ht : c.time ≠ 0)
    (h : m.gitPython = true ∨ m.gitProgram = true ∧ m.working = m.package ∧ ∀ i, m.slow i = false) :
    store base m name f = (.ok (), { members := f.members ++ [name], version := some (named base c) }) := by
  have hv : getVersion base m = .ok (named base c) := by
    unfold getVersion gitInfo
    cases hp : m.gitPython with
    | true => simp [hc.1, askGitPython, hp, hc.2, ht, named]
    | false =>
      rcases h with h | ⟨h1, h2, h3⟩
      · rw [hp] at h; cases h
      · simp [hc.1, askGitPython, hp, askGit, runGit, h1, h2, h3, hc.2, ht, named]
  simp [store, hf, hv]

/-- **C193** (partial): without a repository beside the package a file gets the version of the package. -/
theorem release_version_partial (base : String) (m : Machine) (name : String) (f : File) (hf : "#version" ∉ f.members) (hd : m.gitDir = false) :
    store base m name f = (.ok (), { members := f.members ++ [name], version := some base }) := by
  simp [store, hf, getVersion, gitInfo, hd]

/-- **C193** (partial): if GitPython is not installed, or the repository of the package can be read, the search for the version never prevents storing. -/
theorem store_succeeds_partial (base : String) (m : Machine) (name : String) (f : File)
    (h : m.gitDir = false ∨ m.gitPython = false ∨ ∀ i, m.package i ≠ none) : (store base m name f).1 = .ok () := by
  have hask : ∀ e, askGit m = .error e → e = .fileNotFound ∨ e = .calledProcess ∨ e = .timeout := by
    intro e he
    unfold askGit runGit at he
    cases hg : m.gitProgram <;> cases h0 : m.slow 0 <;> cases h1 : m.slow 1 <;> cases w0 : m.working 0 <;> cases w1 : m.working 1 <;>
      simp_all <;> subst he <;> simp
  have hi : ∃ r, gitInfo m = .ok r := by
    unfold gitInfo
    cases hd : m.gitDir with
    | false => exact ⟨none, rfl⟩
    | true =>
      cases hp : m.gitPython with
      | false =>
        simp only [askGitPython, hp, Bool.not_false, if_true]
        cases ha : askGit m with
        | ok r => exact ⟨some r, rfl⟩
        | error e => exact ⟨none, by simp [hask e ha]⟩
      | true =>
        have hk : ∀ i, m.package i ≠ none := by
          rcases h with h | h | h
          · rw [hd] at h; cases h
          · rw [hp] at h; cases h
          · exact h
        obtain ⟨c, hc⟩ := Option.ne_none_iff_exists'.1 (hk 0)
        obtain ⟨d, hd'⟩ := Option.ne_none_iff_exists'.1 (hk 1)
        exact ⟨some (c.time, d.hash), by simp [askGitPython, hp, hc, hd']⟩
  obtain ⟨r, hr⟩ := hi
  unfold store
  split
  · rfl
  · have : ∃ v, getVersion base m = .ok v := by
      unfold getVersion
      rw [hr]
      rcases r with _ | ⟨t, x⟩
      · exact ⟨_, rfl⟩
      · by_cases ht : t ≠ 0
        · exact ⟨_, by simp only [if_pos ht]; rfl⟩
        · exact ⟨_, by simp only [if_neg ht]; rfl⟩
    obtain ⟨v, hv⟩ := this
    rw [hv]

/-- Texts with different hashes of the same length are different. -/
theorem named_ne {base : String} {c d : Commit} (hl : c.hash.length = d.hash.length) (h : c.hash ≠ d.hash) : named base c ≠ named base d := by
  intro e
  have e := congrArg String.toList e
  simp only [named, String.toList_append] at e
  exact h (String.toList_injective (List.append_inj_right' e (by simpa only [String.length_toList] using hl)))

/-- **C193** is false: without GitPython a file that is written in a working directory inside of another repository names the commit of that repository, whatever
the commit of the package is. -/
theorem version_working_directory_refuted (base : String) (m : Machine) (c w : Commit) (name : String) (f : File) (hf : "#version" ∉ f.members)
    (hc : PackageAt m c) (hp : m.gitPython = false) (hg : m.gitProgram = true) (hs : ∀ i, m.slow i = false) (hw : ∀ i, m.working i = some w) (ht : w.time ≠ 0)
    (hl : w.hash.length = c.hash.length) (hne : w.hash ≠ c.hash) :
    store base m name f = (.ok (), { members := f.members ++ [name], version := some (named base w) }) ∧ named base w ≠ named base c := by
  refine ⟨?_, named_ne hl hne⟩
  have hv : getVersion base m = .ok (named base w) := by
    simp [getVersion, gitInfo, hc.1, askGitPython, hp, askGit, runGit, hg, hs, hw, ht, named]
  simp [store, hf, hv]

/-- **C193** is false: in a working directory without repository the commit is not named although the package belongs to one. -/
theorem version_missing_refuted (base : String) (m : Machine) (c : Commit) (name : String) (f : File) (hf : "#version" ∉ f.members)
    (hc : PackageAt m c) (hp : m.gitPython = false) (hw : ∀ i, m.working i = none) :
    store base m name f = (.ok (), { members := f.members ++ [name], version := some base }) := by
  have hv : getVersion base m = .ok base := by
    unfold getVersion gitInfo askGit runGit
    cases hg : m.gitProgram <;> cases h0 : m.slow 0 <;> simp [hc.1, askGitPython, hp, hg, h0, hw]
  simp [store, hf, hv]

/-- **C193** is false: with GitPython and a folder `.git` whose repository cannot be read (damaged, or without commits) nothing can be stored in any file. -/
theorem store_fails_refuted (base : String) (m : Machine) (name : String) (f : File) (hf : "#version" ∉ f.members)
    (hd : m.gitDir = true) (hp : m.gitPython = true) (hn : m.package 0 = none) : store base m name f = (.error .gitError, f) := by
  simp [store, hf, getVersion, gitInfo, hd, askGitPython, hp, hn]

/-- **C193** is false: if somebody commits while the version is determined the file names a commit that never existed: the time of the old one with the hash of
the new one. -/
theorem version_race_refuted (base : String) (m : Machine) (c d : Commit) (name : String) (f : File) (hf : "#version" ∉ f.members)
    (hd : m.gitDir = true) (hp : m.gitPython = true) (h0 : m.package 0 = some c) (h1 : m.package 1 = some d) (ht : c.time ≠ 0) :
    (store base m name f).2.version = some (named base ⟨c.time, d.hash⟩) := by
  have hv : getVersion base m = .ok (named base ⟨c.time, d.hash⟩) := by
    simp [getVersion, gitInfo, hd, askGitPython, hp, h0, h1, ht, named]
  simp [store, hf, hv]

/-- **C193** is false: a second object that is stored in a file replaces the version that the first one was written with. -/
theorem version_replaced_refuted (base : String) (m m' : Machine) (c d : Commit) (f : File) (n n' : String) (hf : "#version" ∉ f.members) (hn : n ≠ "#version")
    (hc : PackageAt m c) (hd : PackageAt m' d) (hp : m.gitPython = true) (hp' : m'.gitPython = true) (hct : c.time ≠ 0) (hdt : d.time ≠ 0) :
    let f₁ := (store base m n f).2
    let f₂ := (store base m' n' f₁).2
    f₁.version = some (named base c) ∧ f₂.version = some (named base d) ∧ f₂.members = f.members ++ [n, n'] := by
  have e1 := version_partial base m c n f hf hc hct (.inl hp)
  have e2 := version_partial base m' d n' (store base m n f).2 (by rw [e1]; simp [hf, Ne.symm hn]) hd hdt (.inl hp')
  dsimp only
  rw [e2, e1]
  simp

/-- A checkout without GitPython whose user works in another repository. -/
example : store "0.1.0" ⟨true, false, true, fun _ => some ⟨1550000000, "aaaa"⟩, fun _ => some ⟨1600000000, "bbbb"⟩, fun _ => false⟩ "autotuner" ⟨[], none⟩ =
    (.ok (), ⟨["autotuner"], some "0.1.0+1600000000+bbbb"⟩) :=
  (version_working_directory_refuted "0.1.0" ⟨true, false, true, fun _ => some ⟨1550000000, "aaaa"⟩, fun _ => some ⟨1600000000, "bbbb"⟩, fun _ => false⟩
    ⟨1550000000, "aaaa"⟩ ⟨1600000000, "bbbb"⟩ "autotuner" ⟨[], none⟩ (by simp) ⟨rfl, fun _ => rfl⟩ rfl rfl (fun _ => rfl) (fun _ => rfl) (by decide) (by decide) (by decide)).1

/-- A checkout with GitPython. -/
example : store "0.1.0" ⟨true, true, true, fun _ => some ⟨1550000000, "aaaa"⟩, fun _ => none, fun _ => false⟩ "autotuner" ⟨[], none⟩ =
    (.ok (), ⟨["autotuner"], some "0.1.0+1550000000+aaaa"⟩) :=
  version_partial "0.1.0" ⟨true, true, true, fun _ => some ⟨1550000000, "aaaa"⟩, fun _ => none, fun _ => false⟩ ⟨1550000000, "aaaa"⟩ "autotuner" ⟨[], none⟩ (by simp)
    ⟨rfl, fun _ => rfl⟩ (by decide) (.inl rfl)

end Qtune.Version
