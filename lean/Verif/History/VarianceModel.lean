import Verif.History.Model

/-!
# Model of `History.get_gradient_variances` (history.py:230-239)
-/

namespace Qtune.History

/-- A match of the regular expression at the beginning of the text: the gate.  The second gate has to be the same
text as the first one (`(?P=gatename)`).  Simplification: as for `matchAt`.  history.py:236-238. -/
def matchVarianceAt (parameter text : Name) : Option Name :=
  if (parameter ++ ['#']).isPrefixOf text then
    let rest := text.drop (parameter.length + 1)
    let gate := rest.takeWhile wordOrSpace
    if gate ≠ [] ∧ ('#' :: (gate ++ "#cov".toList)).isPrefixOf (rest.dropWhile wordOrSpace) then some gate else none
  else none

/-- `re.search`: the first match anywhere in the text.  Used in history.py:239. -/
def searchVariance (parameter text : Name) : Option Name := text.tails.findSome? (matchVarianceAt parameter)

/-- `get_gradient_variances`: the columns whose names match, with the new names.  history.py:230-239. -/
def getGradientVariances (parameter : Name) (cols : List Name) : List (Name × Name) :=
  cols.filterMap fun c => (searchVariance parameter c).map fun g => (g, c)

end Qtune.History
