import Verif.Package.ImportModel

/-! # What the import of a module needs -/

namespace Qtune.Package

/-- Module `m` has an import statement for module `k`. -/
def Imports (m k : Mod) : Prop := Stmt.imp k ∈ body m ∨ (∃ ns, Stmt.names k ns ∈ body m) ∨ ∃ n, Stmt.sub k n ∈ body m

/-- Module `m` imports package `p`, itself or through the modules that it imports. -/
inductive Needs : Mod → String → Prop
  | here {m : Mod} {p : String} {ns : List String} : Stmt.ext p ns ∈ body m → Needs m p
  | there {m k : Mod} {p : String} : Imports m k → Needs k p → Needs m p

/-- The names of the functions, classes and constants of a module. -/
def defined (m : Mod) : List String := (body m).filterMap fun c => match c with | .define n => some n | _ => none

/-- The modules that cannot be imported. -/
def broken : List Mod := [.sm, .sm_tune_qqd, .kalman_heuristics]

/-- The packages that a module needs, its own imports and those of the modules below it. -/
def packages : Mod → List String
  | .util => ["matplotlib", "numpy", "sympy", "pandas"]
  | .storage | .experiment | .basic_dqd => ["matplotlib", "numpy", "sympy", "pandas", "h5py"]
  | .evaluator => ["matplotlib", "numpy", "sympy", "pandas", "h5py", "scipy"]
  | .kalman_gradient | .gradient | .solver | .parameter_tuner | .autotuner | .history =>
      ["matplotlib", "numpy", "sympy", "pandas", "h5py", "scipy", "filterpy"]
  | .gui => ["matplotlib", "numpy", "sympy", "pandas", "h5py", "scipy", "filterpy", "IPython", "pyqtgraph"]
  | .mat2py => ["matlab"]
  | .sm | .kalman_heuristics => ["matplotlib", "numpy", "sympy", "pandas", "h5py", "scipy", "matlab"]
  | .sm_tune_qqd => ["matplotlib", "numpy", "sympy", "pandas", "h5py", "scipy", "filterpy", "matlab"]

end Qtune.Package
