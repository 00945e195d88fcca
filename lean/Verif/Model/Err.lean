/-! Python exceptions as values. -/

namespace Verif

/-- The exception classes that the modelled code can raise. `Unmodelled` marks an input shape that the
model does not follow; no property theorem has it in its conclusion as a success. -/
inductive Err
  | ValueError
  | KeyError
  | IndexError
  | TypeError
  | AttributeError
  | NotImplementedError
  | ZeroDivisionError
  | UnboundLocalError
  | AssertionError
  | Unmodelled
  deriving DecidableEq, Repr

end Verif
