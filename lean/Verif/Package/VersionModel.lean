import Verif.Base

/-!
# Model of `get_version` (util.py:291-324) and of the version mark of a file (storage.py:156-176)
-/

namespace Qtune.Version

/-- What is read of a commit: `committed_date` and `hexsha`.  util.py:298-299. -/
structure Commit where
  time : Nat
  hash : String
deriving DecidableEq

/-- The machine while the version is determined.  Simplification: a repository is the commit that is checked out, `none` if there is none (no repository, a damaged
one or one without commits).  The package and the working directory may be in different repositories; each is read twice, and somebody may commit in between.
util.py:291-312. -/
structure Machine where
  /-- beside the package there is a folder `.git` (line 292) -/
  gitDir : Bool
  /-- GitPython is installed (line 296) -/
  gitPython : Bool
  /-- the program `git` is installed (line 306) -/
  gitProgram : Bool
  /-- the repository of the package (lines 297-299) -/
  package : Fin 2 → Option Commit
  /-- the repository of the working directory of the process (lines 306-308) -/
  working : Fin 2 → Option Commit
  /-- `git` needs more than three seconds (lines 307-308) -/
  slow : Fin 2 → Bool

/-- The exceptions of this function.  Lines 301 and 310 list which are caught. -/
inductive Exc
  | importError | gitError | fileNotFound | calledProcess | timeout
deriving DecidableEq

/-- Lines 296-300.  `git.Repo` and `head.object` raise `InvalidGitRepositoryError` or `ValueError` (`gitError`) if there is no commit. -/
def askGitPython (m : Machine) : Except Exc (Nat × String) :=
  if !m.gitPython then .error .importError
  else match m.package 0 with
    | none => .error .gitError
    | some c => match m.package 1 with
      | none => .error .gitError
      | some d => .ok (c.time, d.hash)

/-- `subprocess.check_output(['git', ...], timeout=3)`: without `cwd`, so that `git` looks for the repository of the working directory.  Lines 306-308. -/
def runGit (m : Machine) (i : Fin 2) : Except Exc Commit :=
  if !m.gitProgram then .error .fileNotFound
  else if m.slow i then .error .timeout
  else match m.working i with
    | none => .error .calledProcess
    | some c => .ok c

/-- Lines 305-309. -/
def askGit (m : Machine) : Except Exc (Nat × String) :=
  match runGit m 0 with
  | .error e => .error e
  | .ok c => match runGit m 1 with
    | .error e => .error e
    | .ok d => .ok (c.time, d.hash)

/-- `get_git_info` (lines 291-312). -/
def gitInfo (m : Machine) : Except Exc (Option (Nat × String)) :=
  if m.gitDir then
    match askGitPython m with
    | .ok r => .ok (some r)
    | .error .importError =>                                             -- lines 301-302 (`RuntimeError` does not occur)
      match askGit m with
      | .ok r => .ok (some r)
      | .error e =>
        if e = .fileNotFound ∨ e = .calledProcess ∨ e = .timeout then .ok none    -- lines 310-312
        else .error e
    | .error e => .error e
  else .ok none

/-- `get_version` (lines 315-324); `base` is `qtune.__version__`. -/
def getVersion (base : String) (m : Machine) : Except Exc String :=
  match gitInfo m with
  | .error e => .error e
  | .ok none => .ok base
  | .ok (some (t, h)) => if t ≠ 0 then .ok (base ++ "+" ++ toString t ++ "+" ++ h) else .ok base

/-- A file: the names of its objects and the attribute `#version`.  storage.py:156-176. -/
structure File where
  members : List String
  version : Option String

/-- `to_hdf5(filename, name, obj)` (storage.py:156-176): line 163 looks for `#version` among the objects, not among the attributes.  Simplification: storing the
object itself succeeds and adds its name. -/
def store (base : String) (m : Machine) (name : String) (f : File) : Except Exc Unit × File :=
  if f.members.contains "#version" then (.ok (), { f with members := f.members ++ [name] })
  else match getVersion base m with
    | .error e => (.error e, f)
    | .ok v => (.ok (), { members := f.members ++ [name], version := some v })

end Qtune.Version
