import Verif.Base.Py
import Mathlib.Analysis.SpecialFunctions.Trigonometric.DerivHyp
import Mathlib.Analysis.SpecialFunctions.ExpDeriv

/-!
# Nonlinearities and their derivatives (`activation_functions_and_derivatives.py`)

The functions act on tensors element by element; they are modelled on one real number.  A Python string is a list of characters.
-/

namespace Verif.Activation
open Verif

/-- `softmax(x, epsilon)` (`activation_functions_and_derivatives.py:4-5`) -/
noncomputable def softmax (ε x : ℝ) : ℝ := x * 1 / (Real.exp (-x * ε) + 1)

/-- `dsoftmax(x, epsilon)` (`activation_functions_and_derivatives.py:8-9`) -/
noncomputable def dsoftmax (ε x : ℝ) : ℝ :=
  ε * softmax ε x * 1 / (Real.exp (ε * x) + 1) + 1 / (Real.exp (-x * ε) + 1)

/-- `torch.nn.functional.relu` (used at `activation_functions_and_derivatives.py:47`) -/
noncomputable def relu (x : ℝ) : ℝ := max x 0

/-- `drelu(x)` (`activation_functions_and_derivatives.py:11-15`) -/
noncomputable def drelu (x : ℝ) : ℝ := if x ≥ 0 then 1 else 0

/-- `dtanh(x)` (`activation_functions_and_derivatives.py:17-19`) -/
noncomputable def dtanh (x : ℝ) : ℝ := 1 - Real.tanh x ^ 2

/-- `identity(x)`, `didentity(x)` (`activation_functions_and_derivatives.py:21-25`) -/
def identity (x : ℝ) : ℝ := x

/-- see `identity` -/
def didentity (_ : ℝ) : ℝ := 1

/-- `torch.sigmoid` (used at `activation_functions_and_derivatives.py:56-57`) -/
noncomputable def sigmoid (x : ℝ) : ℝ := 1 / (1 + Real.exp (-x))

/-- The supported names (`activation_functions_and_derivatives.py:36`). -/
inductive Name | identity | relu | tanh | sigmoid | softmax
deriving DecidableEq, Repr

/-- `str.lower()`, on the letters A-Z.  Python also maps other letters, but none of them to a letter that occurs in a supported name. -/
def lower (s : List Char) : List Char := s.map Char.toLower

/-- The list `supported_nonlinearities` (`activation_functions_and_derivatives.py:36`). -/
def supported : List (List Char) :=
  ["identity".toList, "relu".toList, "tanh".toList, "sigmoid".toList, "softmax".toList]

/-- The choice for the normalised name `use_nonlinearity` (`activation_functions_and_derivatives.py:43-62`). -/
def chooseName (use : List Char) : Py Name :=
  if supported.contains use = false then .error .valueError
  else if use = "relu".toList then .ok .relu
  else if use = "tanh".toList then .ok .tanh
  else if use = "identity".toList then .ok .identity
  else if use = "sigmoid".toList then .ok .sigmoid
  else if use = "softmax".toList then .ok .softmax
  else .error .valueError

/-- The choice made by `get_nonlinearity` (`activation_functions_and_derivatives.py:38-62`). -/
def choose : Option (List Char) → Py Name
  | none => chooseName "identity".toList
  | some s => chooseName (lower s)

/-- The pair `(nl, dnl)` for a name (`activation_functions_and_derivatives.py:46-64`); `epsilon` has its default 1. -/
noncomputable def pair : Name → (ℝ → ℝ) × (ℝ → ℝ)
  | .relu => (relu, drelu)
  | .tanh => (Real.tanh, dtanh)
  | .identity => (identity, didentity)
  | .sigmoid => (sigmoid, sigmoid)
  | .softmax => (softmax 1, dsoftmax 1)

/-- `get_nonlinearity(nonlinearity)` (`activation_functions_and_derivatives.py:27-64`) -/
noncomputable def getNonlinearity (nonlinearity : Option (List Char)) : Py ((ℝ → ℝ) × (ℝ → ℝ)) :=
  (choose nonlinearity).map pair

end Verif.Activation
