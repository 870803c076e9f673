import Verif.Base.Py
import Verif.Base.PDict
import Verif.Base.Tensor

/-!
# Counting and freezing parameters (`utils.py:43-95`)
-/

namespace Verif.ParamUtils
open Verif

/-- A parameter of a model: its size and whether it is optimised. -/
structure Param where
  size : List Nat
  requiresGrad : Bool
deriving DecidableEq, Repr

/-- `model.named_parameters()`: names and parameters, in order.  Names are pairwise different. -/
abbrev Model := PDict String Param

/-- The two counters. -/
structure Counts where
  fixed : Nat
  optimized : Nat
deriving DecidableEq, Repr

/-- One round of the loop (`utils.py:49-57`). -/
def countStep (c : Counts) (p : String × Param) : Counts :=
  let n := vol p.2.size
  if p.2.requiresGrad then { c with optimized := c.optimized + n } else { c with fixed := c.fixed + n }

/-- `compute_number_of_parameters(model)` (`utils.py:43-69`): fixed, optimized, overall. -/
def numberOfParameters (m : Model) : Nat × Nat × Nat :=
  let c := m.foldl countStep ⟨0, 0⟩
  (c.fixed, c.optimized, c.fixed + c.optimized)

/-- `_freeze_or_unfreeze_parameters` (`utils.py:72-88`): the loop over the names.  The result is the state in which the model is left, and
the exception if one was raised: earlier names have been processed by then. -/
def setGrad (v : Bool) : List String → Model → Model × Option Err
  | [], m => (m, none)
  | n :: ns, m =>
    match PDict.get? m n with
    | none => (m, some .keyError)
    | some p => setGrad v ns (m.set n { p with requiresGrad := v })

/-- `freeze_parameters` (`utils.py:94-95`) -/
def freeze (ns : List String) (m : Model) : Model × Option Err := setGrad false ns m

/-- `unfreeze_parameters` (`utils.py:91-92`) -/
def unfreeze (ns : List String) (m : Model) : Model × Option Err := setGrad true ns m

end Verif.ParamUtils
