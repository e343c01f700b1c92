import Verif.Package.ImportModel
import Mathlib.Data.List.Defs

/-!
# Model of the installation of the package with setup.py

Paths are lists of names.  `listing` are the files below the folder `qtune` of the repository.  Simplifications: the packages that the required
packages require themselves, the version numbers are left out; the command `install_matlab` (setup.py:35-85) is in `Package/MatlabInstallModel.lean`.
-/

namespace Qtune.Package

/-- A name matches a pattern with `*` for any text (module `fnmatch`, used by setuptools for setup.py:98). -/
def wild : List Char → List Char → Bool
  | [], s => s.isEmpty
  | a :: p, s =>
    if a = '*' then s.tails.any (wild p)
    else match s with
      | [] => false
      | c :: s => a == c && wild p s

/-- A name matches one part of a pattern for paths, names with a dot in front only if the pattern has it too (module `glob`, used by setuptools for
setup.py:98). -/
def matchName (pat name : String) : Bool :=
  wild pat.toList name.toList && (pat.toList.head? == some '.' || name.toList.head? != some '.')

/-- A path matches a pattern for paths: part by part (module `glob`, used by setuptools for setup.py:98). -/
def matchPath : List String → List String → Bool
  | [], [] => true
  | p :: ps, n :: ns => matchName p n && matchPath ps ns
  | _, _ => false

/-- `package_data={'qtune': ['qtune/MATLAB/*/*.m']}`, relative to the folder of the package.  setup.py:98. -/
def packageData : List (List String) := [["qtune", "MATLAB", "*", "*.m"]]

/-- The files of the package that are installed: the Python files in its folder and the package data.  setup.py:97-98. -/
def installedFiles (listing : List (List String)) : List (List String) :=
  listing.filter fun f => matchPath ["*.py"] f || packageData.any fun p => matchPath p f

/-- `REQUIRED_PACKAGES`.  setup.py:8-15, 108. -/
def requiredPackages : List String := ["pandas", "numpy", "filterpy", "scipy", "h5py", "sympy"]

/-- requirements.txt:1-10. -/
def requirements : List String := ["pandas", "numpy", "filterpy", "scipy", "sympy", "matplotlib", "pyqtgraph", "h5py", "IPython", "PyQt5"]

end Qtune.Package
