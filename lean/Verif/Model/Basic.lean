/-!
# Exceptions as values

Every Python exception the modelled code can raise is an element of `Err`; a function that may raise
returns `Except Err α`.
-/

namespace WBX

/-- The Python exception classes raised (explicitly or by the interpreter) in the modelled code. -/
inductive Err
  | valueError
  | typeError
  | indexError
  | keyError
  | assertionError
  | fileNotFound
  | attributeError
  deriving DecidableEq, Repr

end WBX
