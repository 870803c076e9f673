import Verif.Evolution.Model
import Verif.Block.Model
import Verif.Block.Spec
import Verif.Whole.Model
import Mathlib.Analysis.SpecialFunctions.Pow.NNReal

/-!
# How far apart two samples are
-/

namespace Verif.Sensitivity
open Verif Verif.Tensor Verif.Evolution

variable {κ K P : Type} [Fintype K] [Fintype P]

/-- The Euclidean distance of two samples of a batch. -/
noncomputable def dist2 (x : κ × K → ℝ) (s s' : κ) : ℝ := √(∑ k, (x (s, k) - x (s', k)) ^ 2)

/-- A right-hand side moves two samples apart at most as fast as a constant times the Euclidean norm of the parameters times their distance. -/
def Controlled (c : ℝ) (g : Class K P) : Prop :=
  ∀ (κ : Type) (θ : P → ℝ) (x : κ × K → ℝ) (s s' : κ), ∑ k, (g κ θ x (s, k) - g κ θ x (s', k)) ^ 2 ≤ c ^ 2 * (∑ r, θ r ^ 2) * ∑ k, (x (s, k) - x (s', k)) ^ 2

/-- In a tensor of predictions, every entry of two samples differs by at most the given bound, which can depend on the samples and the time. -/
def Differ {B : Nat} (L : Whole.Lay K) (key : String) (bound : Fin B → Fin B → ℝ → ℝ) (t : Tensor ℝ) : Block.When ℝ → Prop
  | .upTo e => ∀ i i' k, L.key k = key → ∃ v v', t.get? (i.1 :: L.idx k) = some v ∧ t.get? (i'.1 :: L.idx k) = some v' ∧ |v - v'| ≤ bound i i' e
  | .vector ts => ∀ (j : Nat) (h : j < ts.length) i i' k, L.key k = key →
      ∃ v v', t.get? (j :: i.1 :: L.idx k) = some v ∧ t.get? (j :: i'.1 :: L.idx k) = some v' ∧ |v - v'| ≤ bound i i' ts[j]

end Verif.Sensitivity
