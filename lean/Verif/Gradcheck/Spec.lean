import Verif.Whole.Spec

/-!
# What the norm penalty and the comparison are
-/

namespace Verif.Gradcheck
open Verif Verif.Evolution Verif.Whole

variable {ι β K K' : Type}

/-- The last point at which a method evaluates the right-hand side at time 0; `a` is the one found so far. -/
noncomputable def lastAtZero [Fintype ι] [Fintype β] [Fintype K] [Fintype K'] (fld : ℝ → Sys2 ι β K K' → Sys2 ι β K K') :
    Flow.Method ℝ ℝ → List (Sys2 ι β K K') → Option (Sys2 ι β K K') → Option (Sys2 ι β K K')
  | .done _, _, a => a
  | .fail _, _, a => a
  | .eval t g next, zs, a => lastAtZero fld next (zs ++ [fld t (combine g zs)]) (if t = 0 then some (combine g zs) else a)
  | .test q next, zs, a => lastAtZero fld (next (sumAll (combine q zs))) zs a

/-- Two gradients agree up to a relative error: they vanish at the same elements, and where they do not their ratio is near one. -/
def Agree (tol : ℝ) (auto ana : List ℝ) : Prop := List.Forall₂ (fun a b => (a = 0 ↔ b = 0) ∧ (b ≠ 0 → |a / b - 1| < tol)) auto ana

/-- Some element is not zero. -/
def Moves (l : List ℝ) : Prop := ∃ x ∈ l, x ≠ 0

end Verif.Gradcheck
