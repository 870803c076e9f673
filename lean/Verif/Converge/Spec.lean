import Verif.Evolution.Model
import Mathlib.Analysis.Calculus.Deriv.Basic
import Mathlib.Analysis.Calculus.Deriv.Prod
import Mathlib.Analysis.Calculus.Deriv.Pi

/-!
# Exact solutions and Runge-Kutta methods

Nothing here is about the library: what an exact solution of a differential equation is, and what an explicit Runge-Kutta method does on a grid of times.
-/

namespace Verif.Converge
open Set

variable {V : Type}

section
variable [AddCommMonoid V] [Module ℝ V]

/-- An explicit Runge-Kutta method: for every stage the node and the coefficients of the earlier slopes, then the weights of the slopes. -/
structure Tableau where
  stages : List (ℝ × List ℝ)
  weights : List ℝ

/-- One weight for every stage, and the weights sum to one. -/
def Tableau.Consistent (T : Tableau) : Prop := T.weights.length = T.stages.length ∧ T.weights.sum = 1

/-- The slopes of a step of size `h` from time `t` and value `y`; `ks` are those of the earlier stages. -/
def slopes (f : ℝ → V → V) (h t : ℝ) (y : V) : List (ℝ × List ℝ) → List V → List V
  | [], ks => ks
  | s :: ss, ks => slopes f h t y ss (ks ++ [f (t + s.1 * h) (y + h • Evolution.comb s.2 ks)])

/-- The weighted sum of the slopes: a step adds `h` times this. -/
def increment (T : Tableau) (f : ℝ → V → V) (h t : ℝ) (y : V) : V := Evolution.comb T.weights (slopes f h t y T.stages [])

/-- The values at the grid times `t, ts...`. -/
def gridValues (Φ : ℝ → ℝ → V → V) : ℝ → V → List ℝ → List V
  | _, y, [] => [y]
  | t, y, t' :: ts => y :: gridValues Φ t' (y + (t' - t) • Φ (t' - t) t y) ts

/-- Linear interpolation between the values at `t` and `t'`. -/
noncomputable def between {V : Type} [AddCommGroup V] [Module ℝ V] (t t' : ℝ) (y y' : V) (τ : ℝ) : V :=
  if τ = t then y else if τ = t' then y' else y + ((τ - t) / (t' - t)) • (y' - y)

/-- The values at the requested times `req` (increasing, after `t`) of a method on a grid. -/
noncomputable def outputs {V : Type} [AddCommGroup V] [Module ℝ V] (Φ : ℝ → ℝ → V → V) : ℝ → V → List ℝ → List ℝ → List V
  | _, _, [], _ => []
  | t, y, t' :: ts, req =>
    (req.takeWhile (· ≤ t')).map (between t t' y (y + (t' - t) • Φ (t' - t) t y)) ++
      outputs Φ t' (y + (t' - t) • Φ (t' - t) t y) ts (req.dropWhile (· ≤ t'))

end

/-- Explicit Euler. -/
def euler : Tableau := ⟨[(0, [])], [1]⟩

/-- The midpoint rule. -/
noncomputable def midpoint : Tableau := ⟨[(0, []), (1 / 2, [1 / 2])], [0, 1]⟩

/-- The classical method of Runge and Kutta. -/
noncomputable def rk4 : Tableau := ⟨[(0, []), (1 / 2, [1 / 2]), (1 / 2, [0, 1 / 2]), (1, [0, 0, 1])], [1 / 6, 1 / 3, 1 / 3, 1 / 6]⟩

/-- The 3/8 rule. -/
noncomputable def rk38 : Tableau := ⟨[(0, []), (1 / 3, [1 / 3]), (2 / 3, [-1 / 3, 1]), (1, [1, -1, 1])], [1 / 8, 3 / 8, 3 / 8, 1 / 8]⟩

/-- Steps from `t` to the times `ts`: forward, none longer than `h`. -/
def Mesh (h : ℝ) : ℝ → List ℝ → Prop
  | _, [] => True
  | t, t' :: ts => t < t' ∧ t' ≤ t + h ∧ Mesh h t' ts

/-- A solution of `y' = f(t, y)` between `a` and `b`. -/
def Solves [NormedAddCommGroup V] [NormedSpace ℝ V] (f : ℝ → V → V) (a b : ℝ) (y : ℝ → V) : Prop :=
  ∀ t ∈ Icc a b, HasDerivWithinAt y (f t (y t)) (Icc a b) t

end Verif.Converge
