import Verif.Converge.Spec
import Verif.Chunks.Spec
import Verif.Whole.Block

/-!
# Predicting piece by piece
-/

namespace Verif.LongRange
open Verif Verif.Whole

variable {τ Z V K K' Θ : Type}

/-- Predictions for pieces of time, every piece starting with the last value of the piece before. -/
def follow (F : List τ → Z → List Z) : Z → List (List τ) → List (List Z)
  | _, [] => []
  | z, c :: cs => F c z :: follow F ((F c z).getLastD z) cs

/-- The values of a method at the times themselves, from the value at the first time. -/
def solveAt [AddCommMonoid V] [Module ℝ V] (Φ : ℝ → ℝ → V → V) (y : V) : List ℝ → List V
  | [] => []
  | t :: ts => Converge.gridValues Φ t y ts

/-- The tensor under the name `key` of samples. -/
noncomputable def picture (L : Lay K') (key : String) (sh : List Nat) (B : Nat) (x : Fin B × K' → ℝ) : Tensor ℝ := tab (B :: sh) (value L B x key)

/-- The value a block returns, given to it as input: the returned coordinates are kept, all coordinates are those of `restart`. -/
structure Restarts (L' : Lay K') (key : String) (sh : List Nat) (B : Nat) (init : Tensor ℝ → Py (Concat.TDict ℝ)) (restart : (Fin B × K' → ℝ) → Fin B × K' → ℝ) : Prop where
  init : ∀ x, init (picture L' key sh B x) = .ok (enc L' "" B (restart x))
  keeps : ∀ x b k, L'.key k = key → restart x (b, k) = x (b, k)

/-- The state of a block whose particles are `q`, `p`. -/
def HasParticles (L : Lay K) (L' : Lay K') {n : Nat} (q p : Fin n × K → ℝ) (s : Block.St ℝ ℝ Θ) : Prop :=
  s.state = some (enc L "" n q) ∧ s.costate = some (enc L "p_" n p) ∧ DimOk L' s.dataDim

/-- `q1` is kept, `q2` is zero. -/
def forgetQ2 {C D E : Type} {B : Nat} (x : Fin B × Models.Two C D E → ℝ) : Fin B × Models.Two C D E → ℝ
  | (b, .inl a) => x (b, .inl a)
  | (_, .inr _) => 0

end Verif.LongRange
