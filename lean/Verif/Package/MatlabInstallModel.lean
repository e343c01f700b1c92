import Verif.Base

/-!
# Model of the command `install_matlab` of setup.py (setup.py:35-85)

Paths are lists of names.  What the operating system, the installer of MATLAB and Python's codecs do is a parameter.
-/

namespace Qtune.Package.Engine

/-- A path; the empty list is the empty text. -/
abbrev Path := List String

/-- What `import matlab.engine` does: it succeeds, it raises an `ImportError`, or it raises something else, which is what the engine does if
it does not support the version of Python or does not find its MATLAB.  setup.py:42. -/
inductive Import
  | works
  | missing
  | fails (e : PyErr)

/-- What `where matlab` does: there is no such command, it ends with an error, or it prints bytes.  setup.py:55. -/
inductive Where
  | noCommand
  | failed
  | printed (bytes : List Nat)

/-- A computer.  `codePage` is the number that `chcp.com` prints, `none` if it fails or prints no number (setup.py:50); `lines enc bytes` are the lines
that bytes mean in an encoding, as paths, or the exception that decoding raises (setup.py:55); `installer script dir` is how the installer ends when it is
started in the directory `dir`: its return code and the engine afterwards (setup.py:80-82). -/
structure Machine where
  engine : Import
  codePage : Option String
  whereMatlab : Where
  lines : String → List Nat → Except PyErr (List Path)
  pathExists : Path → Bool
  isFile : Path → Bool
  installer : Path → Path → Nat × Import

/-- `FileNotFoundError`. -/
def fileNotFound : PyErr := .other 2

/-- `get_installer_dir`.  setup.py:61-62. -/
def installerDir (root : Path) : Path := root ++ ["extern", "engines", "python"]

/-- `get_installer_script`.  setup.py:64-65. -/
def installerScript (root : Path) : Path := installerDir root ++ ["setup.py"]

/-- `find_matlabroot`.  setup.py:47-59. -/
def findRoot (M : Machine) : Except PyErr Path :=
  let encoding := M.codePage.getD "utf-8"                                           -- lines 49-52
  match M.whereMatlab with
  | .noCommand => .error fileNotFound
  | .failed => .error (.runtimeError "Could not locate matlab")                     -- lines 56-57
  | .printed bytes =>
    match M.lines encoding bytes with
    | .error e => .error e
    | .ok [] => .error .indexError
    | .ok (p :: _) => .ok p.dropLast.dropLast                                       -- line 59

/-- `finalize_options`; an empty option counts as none.  setup.py:70-76. -/
def finalize (M : Machine) (option : Option Path) : Except PyErr Path :=
  let root : Except PyErr Path :=
    match option with
    | none => findRoot M
    | some [] => findRoot M
    | some (a :: p) => if M.pathExists (a :: p) then .ok (a :: p) else .error .assertionError
  match root with
  | .error e => .error e
  | .ok root => if M.isFile (installerScript root) then .ok root else .error .assertionError

/-- A process that was started: the script and its working directory. -/
abbrev Started := Path × Path

/-- `run`.  setup.py:39-45, 78-85. -/
def run (M : Machine) (root : Path) : Machine × List Started × Except PyErr Unit :=
  match M.engine with
  | .works => (M, [], .ok ())
  | .fails e => (M, [], .error e)
  | .missing =>
    let r := M.installer (installerScript root) (installerDir root)
    ({ M with engine := r.2 }, [(installerScript root, installerDir root)],
      if r.1 = 0 then .ok () else .error (.runtimeError "Error while installing matlab engine"))

/-- `python setup.py install_matlab [--matlabroot=…]`: setuptools calls `finalize_options` and then `run`.  setup.py:70-85, 114. -/
def installMatlab (M : Machine) (option : Option Path) : Machine × List Started × Except PyErr Unit :=
  match finalize M option with
  | .error e => (M, [], .error e)
  | .ok root => run M root

end Qtune.Package.Engine
