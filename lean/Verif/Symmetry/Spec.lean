import Verif.Evolution.Spec
import Mathlib.Data.Fintype.Card
import Mathlib.Algebra.Module.LinearMap.Defs
import Mathlib.Algebra.Module.Pi
import Mathlib.Algebra.BigOperators.Group.Finset.Basic

/-! # Copies, companions and rotations: what the symmetry properties talk about

A system is a triple `(q, p, x)`: state and costate of the particles and the data.  Nothing here mentions the code. -/

namespace Verif.Symmetry
open Verif.Evolution (rows)

variable {ι ι' β K P : Type}

/-- `g : ι' → ι` lists the old particles, each of them exactly `n` times. -/
def EachTimes [Fintype ι'] [DecidableEq ι] (g : ι' → ι) (n : ℕ) : Prop :=
  ∀ i, (Finset.univ.filter fun i' => g i' = i).card = n

/-- The system in which the new particle `i'` is a copy (state and costate) of the old particle `g i'`; the data are the same. -/
def copyParticles (g : ι' → ι) (s : (ι × K → ℝ) × (ι × K → ℝ) × (β × K → ℝ)) :
    (ι' × K → ℝ) × (ι' × K → ℝ) × (β × K → ℝ) :=
  (rows g s.1, rows g s.2.1, s.2.2)

/-- Sample `b` of the data is at the state of particle `g b`, for every sample. -/
def AtParticles (g : β → ι) (s : (ι × K → ℝ) × (ι × K → ℝ) × (β × K → ℝ)) : Prop :=
  ∀ b k, s.2.2 (b, k) = s.1 (g b, k)

/-- Applying a map to every row. -/
def mapRows {κ : Type} (L : (K → ℝ) → (K → ℝ)) (x : κ × K → ℝ) : κ × K → ℝ := fun m => L (fun k => x (m.1, k)) m.2

/-- Applying a map of one particle's coordinates to state, costate and data. -/
def moveAll (L : (K → ℝ) → (K → ℝ)) (s : (ι × K → ℝ) × (ι × K → ℝ) × (β × K → ℝ)) :
    (ι × K → ℝ) × (ι × K → ℝ) × (β × K → ℝ) :=
  (mapRows L s.1, mapRows L s.2.1, mapRows L s.2.2)

/-- `L` is linear and does not change inner products (a rotation or reflection). -/
structure Orthogonal [Fintype K] (L : (K → ℝ) →ₗ[ℝ] (K → ℝ)) : Prop where
  inner : ∀ x y, ∑ k, L x k * L y k = ∑ k, x k * y k

/-- A square matrix with `UᵀU = 1`. -/
def OrthogonalMatrix {D : Type} [Fintype D] [DecidableEq D] (U : D → D → ℝ) : Prop :=
  ∀ a b, ∑ d, U d a * U d b = if a = b then 1 else 0

end Verif.Symmetry
