import Verif.Converge.Spec
import Mathlib.Analysis.Calculus.FDeriv.Basic

/-!
# Gradients by solving an equation backward

Nothing here is about the library.  For `y' = f(t, y)` and a loss that depends on the values of `y` at some times, the adjoint method returns a linear form on the initial values: it
starts with the derivative of the loss with respect to the last value, follows `α' = - α ∂f/∂y` backward to the time before, adds the derivative with respect to that value, and so on.
-/

namespace Verif.Adjoint
open Set

variable {E : Type} [NormedAddCommGroup E] [NormedSpace ℝ E]

/-- `α` solves `α' = - α ∂f/∂y` along `y` between `s` and `u`. -/
def Sweeps (f : ℝ → E → E) (y : ℝ → E) (s u : ℝ) (α : ℝ → E →L[ℝ] ℝ) : Prop :=
  ∀ t ∈ Icc s u, HasDerivWithinAt α (-(α t).comp (fderiv ℝ (f t) (y t))) (Icc s u) t

/-- The list has the times and, for each, the derivative of the loss with respect to the value at this time; the result is the linear form at the first time. -/
inductive Backward (f : ℝ → E → E) (y : ℝ → E) : List (ℝ × (E →L[ℝ] ℝ)) → (E →L[ℝ] ℝ) → Prop
  | last (t : ℝ) (ℓ : E →L[ℝ] ℝ) : Backward f y [(t, ℓ)] ℓ
  | step {t u : ℝ} {ℓ ℓ' : E →L[ℝ] ℝ} {r : List (ℝ × (E →L[ℝ] ℝ))} {α : ℝ → E →L[ℝ] ℝ} (later : Backward f y ((u, ℓ') :: r) (α u)) (sweep : Sweeps f y t u α) :
      Backward f y ((t, ℓ) :: (u, ℓ') :: r) (ℓ + α t)

end Verif.Adjoint
