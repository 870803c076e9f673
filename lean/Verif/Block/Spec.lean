import Verif.Block.Model

/-!
# What blocks should do
-/

namespace Verif.Block
open Verif

variable {α T Θ R : Type}

/-- Some forward pass of a history succeeded. -/
def SomeSuccess [Zero α] [OfNat T 0] (cfg : Cfg α T Θ R) (s : St α T Θ) (ops : List (Op α T Θ R)) : Prop :=
  ∃ pre r i post o, ops = pre ++ .forward r i :: post ∧ (forward cfg r i (after cfg s pre)).2 = .ok o

/-- The two ways to say when to integrate. -/
inductive When (T : Type) where
  /-- from 0 to a time; only the final values are returned -/
  | upTo (t : T)
  /-- a vector of times; the values at all times are returned -/
  | vector (v : List T)
  deriving DecidableEq

/-- The setting made last. -/
def lastWhen (w : When T) : List (Op α T Θ R) → When T
  | [] => w
  | .setTime t :: ops => lastWhen (.upTo t) ops
  | .setTimeVector v :: ops => lastWhen (.vector v) ops
  | _ :: ops => lastWhen w ops

/-- The block is set to `w`, and to nothing else. -/
def Is [OfNat T 0] (s : St α T Θ) : When T → Prop
  | .upTo t => s.time = some [0, t] ∧ s.timeVector = none
  | .vector v => s.time = none ∧ s.timeVector = some v

/-- The times an integration gets. -/
def When.times [OfNat T 0] : When T → List T
  | .upTo t => [0, t]
  | .vector v => v

/-- Names, sizes and positions of enlargement parameters, without their values. -/
def skeleton (e : Enl α) : Option (List (String × List (String × Option (Nat × List Int)))) :=
  e.map fun d => d.map fun b => (b.1, b.2.map fun p => (p.1, p.2.map fun x => (x.1.length, x.2)))

/-- Not an optimiser step. -/
def NoTrain : Op α T Θ R → Prop
  | .train _ _ => False
  | _ => True

end Verif.Block
