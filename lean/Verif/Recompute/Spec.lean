import Verif.Recompute.Model

/-!
# Specification for C95
-/

namespace Verif.Recompute
open Verif Verif.Assembly Verif.Flow

variable {α T : Type}

/-- The plans an event brings along. -/
def planOf : Event α T → Option AllPlans
  | .pass _ p _ => some p
  | .eval _ _ => none
  | .plans p => some p

/-- The plans of the last event that brought some. -/
def lastPlans (es : List (Event α T)) : Option AllPlans := (es.filterMap planOf).getLast?

/-- Evaluations at given times and vectors. -/
def evals (l : List (T × List α)) : List (Event α T) := l.map fun e => .eval e.1 e.2

variable {Par N R H D : Type}

/-- Hooks do not raise, and the parameters do not depend on the random values they start from (`C32_independent_of_initialisation`). -/
def Calm (cfg : Integrand.Cfg T (Trip α) Par (TDicts α) N R H D) : Prop := (∀ h a, cfg.hookFails h a = none) ∧ ∀ r r' x, cfg.rule.compute r x = cfg.rule.compute r' x

/-- The same integrand, but with these parameters always. -/
def withParameters (cfg : Integrand.Cfg T (Trip α) Par (TDicts α) N R H D) (θ : Par) : Integrand.Cfg T (Trip α) Par (TDicts α) N R H D :=
  { cfg with rule := { cfg.rule with compute := fun _ _ => .ok θ } }

/-- The derivatives have the names `dot_...` and the shapes of a plan. -/
def KeepsShapes {σ : Type} (q : AllPlans) (F : T → Trip α → σ → σ × Py (Trip α)) : Prop :=
  ∀ t x s y, HasLayout q x → (F t x s).2 = .ok y → ∃ d, y = dotted3 d ∧ HasLayout q d

end Verif.Recompute
