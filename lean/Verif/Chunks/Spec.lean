import Verif.Chunks.Model
import Mathlib.Algebra.Group.Defs
import Mathlib.Logic.Function.Iterate

/-!
# What chunks and flows are
-/

namespace Verif.Chunks

variable {σ τ Y P : Type}

/-- All points of the chunks, the first point of every later chunk counted once (it repeats a point). -/
def glue : List (List τ) → List τ
  | [] => []
  | c :: cs => c ++ (cs.map List.tail).flatten

/-- The second chunk starts at the last point of the first one. -/
def Overlap (c d : List τ) : Prop := ∃ x, c.getLast? = some x ∧ d.head? = some x

/-- `φ a` advances by time `a`. -/
structure Flow [AddCommGroup τ] (φ : τ → Y → Y) : Prop where
  zero : ∀ y, φ 0 y = y
  add : ∀ a b y, φ (a + b) y = φ b (φ a y)

/-- Whatever the block did before (`Inv`), it predicts the flow `φ` from the first time on. -/
def Predicts [AddCommGroup τ] (B : Blk σ τ Y P) (Inv : σ → Prop) (φ : τ → Y → Y) : Prop :=
  ∀ s, Inv s → ∀ (a : τ) (ts : List τ) (y : Y), ∃ s', B.call y (B.setTimes (a :: ts) s) = (s', .ok ((a :: ts).map fun u => φ (u - a) y)) ∧ Inv s'

/-- The times `a, a + h, ..., a + (n-1) h`. -/
def grid [AddCommGroup τ] (a h : τ) (n : Nat) : List τ := (List.range n).map fun i => a + i • h

/-- On uniform grids with step `h` the block applies the same map `f` from one time to the next: one step of an autonomous one-step method, or
the flow of an autonomous equation over the time `h`. -/
def StepsOnGrid [AddCommGroup τ] (B : Blk σ τ Y P) (Inv : σ → Prop) (h : τ) (f : Y → Y) : Prop :=
  ∀ s, Inv s → ∀ (a : τ) (n : Nat) (y : Y), 0 < n → ∃ s', B.call y (B.setTimes (grid a h n) s) = (s', .ok ((List.range n).map fun i => f^[i] y)) ∧ Inv s'

end Verif.Chunks
