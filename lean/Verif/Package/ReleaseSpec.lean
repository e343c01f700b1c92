import Verif.Package.ReleaseModel

/-!
# Specification: python files and the value of `__version__` after their execution
-/

namespace Qtune.Package.Release

/-- A statement of a module such as `qtune/__init__.py`. -/
inductive Stmt where
  /-- a text in three quotes -/
  | doc (text : List Char)
  /-- a comment -/
  | comment (text : List Char)
  /-- `name = 'value'`, or without spaces `name='value'` -/
  | assign (spaces : Bool) (name : List Char) (quote : Char) (value : List Char)

/-- How the statement is written, with the newline at its end. -/
def Stmt.text : Stmt → List Char
  | .doc t => ['"', '"', '"'] ++ t ++ ['"', '"', '"', '\n']
  | .comment t => '#' :: t ++ ['\n']
  | .assign spaces name q v => name ++ (if spaces then [' ', '=', ' '] else ['=']) ++ q :: v ++ [q, '\n']

/-- The statement is written correctly: no quotes within the text in three quotes (python permits one or two), a comment ends with its line, a
name consists of letters, digits and underscores, and a value has no backslash, no newline and not its own quote. -/
def Stmt.Correct : Stmt → Prop
  | .doc t => '"' ∉ t ∧ '\\' ∉ t
  | .comment t => '\n' ∉ t
  | .assign _ name q v => name ≠ [] ∧ (∀ c ∈ name, c.isAlphanum ∨ c = '_') ∧ (q = '\'' ∨ q = '"') ∧ q ∉ v ∧ '\\' ∉ v ∧ '\n' ∉ v

/-- The text of a file. -/
def source (p : List Stmt) : List Char := p.flatMap Stmt.text

/-- The value that a statement gives to `__version__`. -/
def Stmt.gives : Stmt → Option (List Char)
  | .assign _ name _ v => if name = "__version__".toList then some v else none
  | _ => none

/-- `qtune.__version__` after the import: the value that has been assigned last. -/
def imported : List Stmt → Option (List Char)
  | [] => none
  | s :: p =>
    match imported p with
    | some v => some v
    | none => s.gives

/-- A line of the text begins with `w`. -/
def LineBegins (w t : List Char) : Prop := ∃ a b, t = a ++ '\n' :: (w ++ b)

end Qtune.Package.Release
