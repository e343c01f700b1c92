import Verif.Base

/-!
# Model of `get_version` of setup.py: the version of the distribution
-/

namespace Qtune.Package.Release

/-- What `\s` matches in a text: the characters for which `str.isspace` holds.  setup.py:27. -/
def isSpace (c : Char) : Bool :=
  let n := c.toNat
  (9 ≤ n && n ≤ 13) || (28 ≤ n && n ≤ 32) || n == 0x85 || n == 0xa0 || n == 0x1680 || (0x2000 ≤ n && n ≤ 0x200a) ||
    n == 0x2028 || n == 0x2029 || n == 0x202f || n == 0x205f || n == 0x3000

/-- What `['"]` matches.  setup.py:27. -/
def isQuote (c : Char) : Bool := c == '\'' || c == '"'

/-- The letters of `__version__`.  setup.py:27. -/
def word : List Char := ['_', '_', 'v', 'e', 'r', 's', 'i', 'o', 'n', '_', '_']

/-- The part of the pattern behind `__version__`: one space, an equals sign, one space, a quote, the group and a quote.  The group takes everything up to the next
quote, of either kind, also beyond the end of the line.  setup.py:27. -/
def matchTail : List Char → Option (List Char)
  | s₁ :: e :: s₂ :: q :: rest =>
    if isSpace s₁ && e == '=' && isSpace s₂ && isQuote q then
      match rest.dropWhile fun c => !isQuote c with
      | [] => none
      | _ :: _ => some (rest.takeWhile fun c => !isQuote c)
    else none
  | _ => none

/-- The pattern without `^` at the beginning of a text; the group if it matches.  setup.py:27. -/
def matchHere (s : List Char) : Option (List Char) :=
  if word <+: s then matchTail (s.drop word.length) else none

/-- `re.search` with `re.M`: the leftmost match; `^` matches at the beginning of the text and behind each newline (`bol`).  setup.py:27. -/
def search : Bool → List Char → Option (List Char)
  | _, [] => none
  | bol, c :: s =>
    match if bol then matchHere (c :: s) else none with
    | some v => some v
    | none => search (c == '\n') s

/-- `get_version`.  Simplification: the text of `qtune/__init__.py` is given (a file that cannot be read or decoded is not modelled), and the message of the exception is shortened.  setup.py:26-32. -/
def getVersion (text : List Char) : Except PyErr (List Char) :=
  match search true text with
  | some v => .ok v
  | none => .error (.runtimeError "Could not extract version")

end Qtune.Package.Release
