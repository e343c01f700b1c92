import Verif.Matlab.SetupModel

/-! # The setup of special measure (C208) -/

namespace Qtune.Matlab.Setup

/-- The file sets special measure up when the engine for Python calls it: a function with an output that creates the
variable `smdata` in the base workspace and does not raise. -/
def SetsUp (f : File) : Prop :=
  f.isScript = false ∧ 1 ≤ f.outputs ∧ f.base = true ∧ f.fails = false

/-- **C208 (a), provable part.** The constructor, given the name of a setup file and a session in which special measure is
not set up, goes on exactly if the file is a function with an output that creates `smdata` in the base
workspace and does not raise; it is then executed exactly once. -/
theorem setup_iff_partial (files : String → Option File) (name : String) (hname : name ≠ "") (s : Session)
    (hs : s.base = false) :
    ((initSpecialMeasure files (some name) s).2 = .ok () ↔ ∃ f, files name = some f ∧ SetsUp f) ∧
    ((initSpecialMeasure files (some name) s).2 = .ok () →
      (initSpecialMeasure files (some name) s).1.base = true ∧
      (initSpecialMeasure files (some name) s).1.executed = s.executed + 1) := by
  cases hf : files name with
  | none => simp [initSpecialMeasure, hs, hname, call, hf]
  | some f =>
    rcases f with ⟨sc, out, b, g, fl⟩
    cases sc <;> cases b <;> cases fl <;> rcases out with _ | out <;>
      simp [initSpecialMeasure, hs, hname, call, hf, SetsUp]

/-- Both alternatives occur. -/
example : (initSpecialMeasure (fun n => if n = "setup" then some ⟨false, 1, true, true, false⟩ else none)
      (some "setup") ⟨false, false, 0, ⟨[], 0⟩⟩).2 = .ok () ∧
    (initSpecialMeasure (fun n => if n = "setup" then some ⟨false, 1, true, true, false⟩ else none)
      (some "setpu") ⟨false, false, 0, ⟨[], 0⟩⟩).2 = .error matlabError := by
  constructor <;> simp [initSpecialMeasure, call]

/-- **C208 (b).** A session in which special measure is set up is left alone: nothing is executed, whatever the
argument, and the constructor does what it does without a setup file. -/
theorem setup_only_once (files : String → Option File) (script : Option String) (own : String)
    (installed : Bool) (same : String → String → Except PyErr Bool) (overwrite : Option Bool) (s : Session)
    (hs : s.base = true) :
    initSpecialMeasure files script s = (s, .ok ()) ∧
      construct files script own installed same overwrite s =
        construct (fun _ => none) none own installed same overwrite s := by
  simp [initSpecialMeasure, construct, hs]

theorem call_path (files : String → Option File) (name : String) (s : Session) :
    (call files name s).1.path = s.path := by
  unfold call
  split
  · rfl
  · split <;> rfl

/-- **C208 (c).** If the setup fails, the constructor raises, and the path of MATLAB is as before. -/
theorem failed_setup_keeps_path (files : String → Option File) (script : Option String) (own : String)
    (installed : Bool) (same : String → String → Except PyErr Bool) (overwrite : Option Bool) (s : Session)
    (e : PyErr) (h : (initSpecialMeasure files script s).2 = .error e) :
    (construct files script own installed same overwrite s).2 = .error e ∧
      (construct files script own installed same overwrite s).1.path = s.path := by
  have hp : (initSpecialMeasure files script s).1.path = s.path := by
    cases script with
    | none => cases hb : s.base <;> simp [initSpecialMeasure, hb]
    | some name =>
      unfold initSpecialMeasure
      split
      · rfl
      · simp only
        split
        · rfl
        · have hc := call_path files name s
          rcases hk : call files name s with ⟨s', e' | u⟩
          · rw [hk] at hc; exact hc
          · rw [hk] at hc
            simp only
            split <;> exact hc
  rcases hi : initSpecialMeasure files script s with ⟨s', e' | u⟩
  · rw [hi] at h hp
    simp only [Except.error.injEq] at h
    subst h
    simp only at hp
    simp [construct, hi, hp]
  · rw [hi] at h; simp at h

example : (initSpecialMeasure (fun _ => none) (some "x") ⟨false, false, 0, ⟨["/opt/qtune"], 0⟩⟩).2 =
    .error matlabError := by simp [initSpecialMeasure, call]

/-- **C208 is false for scripts**, for every session without `smdata`: a setup file that is a script, as the name of the argument
suggests, or a function without output is not executed at all; the constructor raises. -/
theorem setup_script_refuted (files : String → Option File) (name : String) (hname : name ≠ "") (s : Session)
    (hs : s.base = false) (f : File) (hf : files name = some f) (h : f.isScript = true ∨ f.outputs = 0)
    (own : String) (installed : Bool) (same : String → String → Except PyErr Bool)
    (overwrite : Option Bool) :
    construct files (some name) own installed same overwrite s = (s, .error matlabError) := by
  have hc : (f.isScript || f.outputs == 0) = true := by
    rcases h with h | h <;> simp [h]
  simp only [construct, initSpecialMeasure, hs, hname, call, hf, hc]
  simp

/-- **C208 is false for the data that is used**: the functions of `+qtune` use the global variable, but a setup file that only
creates a variable in the base workspace is accepted, and one that only creates the global variable is refused
although it has set special measure up. -/
theorem setup_global_refuted (files : String → Option File) (name : String) (hname : name ≠ "") (s : Session)
    (hs : s.base = false) (hg : s.global = false) (out : Nat) :
    (files name = some ⟨false, out + 1, true, false, false⟩ →
      (initSpecialMeasure files (some name) s).2 = .ok () ∧
      (initSpecialMeasure files (some name) s).1.global = false) ∧
    (files name = some ⟨false, out + 1, false, true, false⟩ →
      (∃ m, (initSpecialMeasure files (some name) s).2 = .error (.runtimeError m)) ∧
      (initSpecialMeasure files (some name) s).1.global = true) := by
  constructor
  · intro hf; simp [initSpecialMeasure, hs, hname, call, hf, hg]
  · intro hf; simp [initSpecialMeasure, hs, hname, call, hf]

/-- **C208 is false without a setup file**: the constructor does not raise because special measure is not set up. -/
theorem setup_missing_refuted (files : String → Option File) (s : Session) :
    initSpecialMeasure files none s = (s, .ok ()) ∧ initSpecialMeasure files (some "") s = (s, .ok ()) := by
  simp [initSpecialMeasure]

end Qtune.Matlab.Setup
