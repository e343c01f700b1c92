/-!
# Common vocabulary

Python exceptions as values.  The constructors name the exception classes that the
modelled code raises itself (`raise RuntimeError`, failing `assert`, failing label or
position lookups, ...); `other` stands for anything raised by user supplied tuners,
evaluators or experiments.
-/

namespace Qtune

/-- Python exception classes that occur in the modelled code. `evaluationError` is
`qtune.util.EvaluationError` (util.py:35-36), `linAlgError` is `numpy.linalg.LinAlgError`. -/
inductive PyErr
  | runtimeError (msg : String)
  | assertionError
  | keyError
  | indexError
  | valueError
  | typeError
  | attributeError
  | nameError
  | evaluationError
  | recursionError
  | linAlgError
  | other (tag : Nat)
deriving DecidableEq, Repr

end Qtune
