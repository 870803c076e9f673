import Mathlib.Analysis.Calculus.Deriv.Add
import Mathlib.Analysis.Calculus.Deriv.Mul
import Mathlib.Analysis.Calculus.Deriv.Comp
import Mathlib.Analysis.Calculus.Deriv.Pi
import Mathlib.Analysis.Calculus.Deriv.Prod
import Mathlib.Analysis.Calculus.FDeriv.Pi
import Mathlib.Analysis.Calculus.FDeriv.Mul
import Mathlib.Analysis.Calculus.FDeriv.Add

/-!
# What "gradient" and "affine in the parameters" mean

A tensor (or a collection of tensors) with index set `J` is a function `J → ℝ`.  Nothing in this file mentions the code.
-/

namespace Verif.Shooting

/-- `g` is the gradient of `F` at `x`: `F` is differentiable at `x` (in the sense of Fréchet) and its
derivative in direction `v` is `∑ j, g j * v j`. -/
def HasGrad {J : Type} [Fintype J] (F : (J → ℝ) → ℝ) (g x : J → ℝ) : Prop :=
  HasFDerivAt F (∑ j, g j • (ContinuousLinearMap.proj j : (J → ℝ) →L[ℝ] ℝ)) x

/-- A vector field `f θ q` is affine in its parameters `θ`: for a given state every component is a constant plus a linear
combination of the parameters. -/
def AffineInParams {J P : Type} [Fintype P] (f : (P → ℝ) → (J → ℝ) → (J → ℝ)) : Prop :=
  ∀ q j, ∃ (a : ℝ) (m : P → ℝ), ∀ θ, f θ q j = a + ∑ r, m r * θ r

/-- A vector field is linear in its parameters: affine with constant 0. -/
def LinearInParams {J P : Type} [Fintype P] (f : (P → ℝ) → (J → ℝ) → (J → ℝ)) : Prop :=
  ∀ q j, ∃ m : P → ℝ, ∀ θ, f θ q j = ∑ r, m r * θ r

/-- `θ` is the only point where `L` takes its smallest value. -/
def UniqueMinimiser {X : Type} (L : X → ℝ) (θ : X) : Prop :=
  ∀ θ', θ' ≠ θ → L θ < L θ'

/-- Half the weighted sum of squares. -/
noncomputable def halfWeightedSquares {P : Type} [Fintype P] (w θ : P → ℝ) : ℝ := (∑ r, w r * θ r ^ 2) / 2

end Verif.Shooting
