import Mathlib.Data.List.Basic

/-!
# Python exceptions

Functions of the Python layer that can raise are modelled with values in `Except PyErr`.
-/

namespace Batoid

/-- The exception classes raised by the modelled Python code (messages are not modelled). -/
inductive PyErr where
  | valueError
  | typeError
  | keyError
  | attributeError
  | indexError
  | assertionError
  | runtimeError
  | notImplemented
  | unboundLocal
  | overflowError
  | zeroDivisionError
  deriving DecidableEq, Repr

end Batoid
