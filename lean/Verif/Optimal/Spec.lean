import Verif.Shooting.Spec
import Mathlib.MeasureTheory.Integral.IntervalIntegral.Basic

/-!
# Parameters that vary with time, and what they cost

A vector field `f θ q` gives the speed of all coordinates `q` for parameters `θ`.  Nothing in this file mentions the code.
-/

namespace Verif.Optimal
open Set Verif.Shooting

variable {J P : Type} [Fintype J] [Fintype P]

/-- The parameters `θ t` depend continuously on the time `t` in `[a, b]` and move the state along `q`. -/
structure Driven (f : (P → ℝ) → (J → ℝ) → (J → ℝ)) (θ : ℝ → P → ℝ) (q : ℝ → J → ℝ) (a b : ℝ) : Prop where
  cont : ∀ r, ContinuousOn (fun t => θ t r) (Icc a b)
  state : ∀ t ∈ Icc a b, ∀ j, HasDerivWithinAt (fun s => q s j) (f (θ t) (q t) j) (Icc a b) t

/-- What parameters cost from time `a` to `b`: the integral of half the weighted sum of squares. -/
noncomputable def cost (w : P → ℝ) (θ : ℝ → P → ℝ) (a b : ℝ) : ℝ := ∫ t in a..b, halfWeightedSquares w (θ t)

/-- The parameters `θ` (with states `q`) have the smallest sum of their cost and of a loss `Φ` at the final state, among all that start at the same state. -/
def BestFor (f : (P → ℝ) → (J → ℝ) → (J → ℝ)) (w : P → ℝ) (Φ : (J → ℝ) → ℝ) (θ : ℝ → P → ℝ) (q : ℝ → J → ℝ) (a b : ℝ) : Prop :=
  Driven f θ q a b ∧ ∀ θ' q', Driven f θ' q' a b → q' a = q a → cost w θ a b + Φ (q b) ≤ cost w θ' a b + Φ (q' b)

end Verif.Optimal
