import Verif.Block.Model
import Verif.Block.Spec
import Mathlib.Data.Real.Basic

/-!
# The order of numbers

Samples that are single numbers, and the predictions for them.
-/

namespace Verif.Ordering
open Verif Verif.Tensor

/-- The predictions in a tensor of shape `[B, 1, 1]` (one number per sample) are in the order of the samples `x`; for a vector of times, in a tensor of shape `[times, B, 1, 1]`, at every time. -/
def Keeps {B : Nat} (x : Fin B → ℝ) (t : Tensor ℝ) : Block.When ℝ → Prop
  | .upTo _ => t.WF ∧ t.shape = [B, 1, 1] ∧ ∀ s s' : Fin B, x s < x s' → ∃ v v', t.get? [s.1, 0, 0] = some v ∧ t.get? [s'.1, 0, 0] = some v' ∧ v < v'
  | .vector ts => t.WF ∧ t.shape = [ts.length, B, 1, 1] ∧
      ∀ i < ts.length, ∀ s s' : Fin B, x s < x s' → ∃ v v', t.get? [i, s.1, 0, 0] = some v ∧ t.get? [i, s'.1, 0, 0] = some v' ∧ v < v'

end Verif.Ordering
