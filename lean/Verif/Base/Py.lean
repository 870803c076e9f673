/-!
# Python conventions used by all model files

Exceptions are values.  `Py α` is the result of a Python call: either a value or the kind of the
exception that was raised (the message text is not modelled).
-/

namespace Verif

/-- Kinds of Python exceptions the modelled code can raise. -/
inductive Err where
  | valueError
  | keyError
  | indexError
  | typeError
  | attributeError
  | runtimeError
  | assertionError
  | unboundLocal
  | zeroDivision
  deriving DecidableEq, Repr

/-- Result of a Python call. -/
abbrev Py (α : Type _) := Except Err α

/-- A result is an exception. -/
def Py.Raises {α : Type _} (r : Py α) : Prop := ∃ e, r = .error e

instance {ε α : Type _} [DecidableEq ε] [DecidableEq α] : DecidableEq (Except ε α)
  | .ok a, .ok b => if h : a = b then isTrue (by rw [h]) else isFalse (by intro h'; cases h'; exact h rfl)
  | .error a, .error b => if h : a = b then isTrue (by rw [h]) else isFalse (by intro h'; cases h'; exact h rfl)
  | .ok _, .error _ => isFalse (by intro h; cases h)
  | .error _, .ok _ => isFalse (by intro h; cases h)

end Verif
