import Verif.Integrator.Model

/-!
# Specification vocabulary for checkpointed integration
-/

namespace Verif.Integrator

variable {T X : Type _}

/-- The times flagged for output, over all intervals. -/
def outputs (ivs : List (Interval T)) : List T :=
  ivs.flatMap (fun iv => ((iv.1.zip iv.2).filter (fun p => p.2)).map (fun p => p.1))

/-- The list ends with `e`, and everything before is smaller than `e`. -/
def EndsWith [LT T] (l : List T) (e : T) : Prop := ∃ init, l = init ++ [e] ∧ ∀ x ∈ init, x < e

/-- The intervals form a chain from `a` to `b`: each starts where the previous one ended. -/
def ChainFrom (a b : T) : List (Interval T) → Prop
  | [] => a = b
  | iv :: ivs => ∃ e, iv.1.head? = some a ∧ iv.1.getLast? = some e ∧ ChainFrom e b ivs

/-- A solver that returns, for times starting at `a`, the values of a flow `φ`. -/
def SolvesFlow [LE T] (φ : T → T → X → X) (solve : Solver X T) : Prop :=
  ∀ x a ts, (∀ t ∈ ts, a ≤ t) → solve x (a :: ts) = .ok ((a :: ts).map (fun t => φ a t x))

/-- Flow laws: no time, no change; stopping in between does not matter. -/
structure IsFlow [LE T] (φ : T → T → X → X) : Prop where
  self : ∀ a x, φ a a x = x
  comp : ∀ a b c x, a ≤ b → b ≤ c → φ b c (φ a b x) = φ a c x

end Verif.Integrator
