import Mathlib.Algebra.BigOperators.Group.Finset.Basic
import Mathlib.Data.Real.Basic

/-!
# Least squares

Nothing in this file mentions the code.
-/

namespace Verif.Transport

/-- The squared Euclidean distance. -/
def dist2 {J : Type} [Fintype J] (x y : J → ℝ) : ℝ := ∑ j, (x j - y j) ^ 2

/-- The inner product. -/
def inner2 {J : Type} [Fintype J] (x y : J → ℝ) : ℝ := ∑ j, x j * y j

/-- `θ` takes the smallest value of `L`. -/
def Minimiser {X : Type} (L : X → ℝ) (θ : X) : Prop := ∀ θ', L θ ≤ L θ'

/-- Among all vectors `v θ`, the vector `v θ` is closest to `target`. -/
def Closest {X J : Type} [Fintype J] (v : X → J → ℝ) (target : J → ℝ) (θ : X) : Prop :=
  ∀ θ', dist2 (v θ) target ≤ dist2 (v θ') target

end Verif.Transport
