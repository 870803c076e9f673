import Verif.Datasets.Model

/-!
# What data sets and loaders hand out
-/

namespace Verif.Datasets
open Verif

variable {Y τ : Type}

/-- A batch `(y0, t, y)` consists of the windows of `b` points of the trajectory that start at the points with numbers `ss`: initial values, the first `b` times, and for each of the `b` times the points of all windows. -/
structure Windows (d : Traj Y τ) (b : Nat) (ss : List Nat) (batch : List Y × Option (List τ) × List (List Y)) : Prop where
  /-- the windows end before the last point -/
  inside : ∀ s ∈ ss, s + b < d.y.length
  starts : batch.1.map some = ss.map fun s => d.y[s]?
  times : batch.2.1 = some (d.t.take b)
  length : batch.2.2.length = b
  points : ∀ k < b, ∃ row, batch.2.2[k]? = some row ∧ row.map some = ss.map fun s => d.y[s + k]?

/-- The trajectory and the options fit: as many times as points, windows have a point, the array of the distance-based sampling only has start indices of windows inside the trajectory (which C54 proves), and there is
something to draw. -/
structure Usable (d : Traj Y τ) (b : Nat) (distanceBased : Bool) : Prop where
  pos : 0 < b
  times : d.t.length = d.y.length
  uniform : distanceBased = true → d.uniform ≠ [] ∧ ∀ i ∈ d.uniform, i + b < d.y.length
  short : b < d.y.length

/-- Where windows may start. -/
def startIndices (d : Traj Y τ) (b : Nat) (distanceBased : Bool) : List Nat := if distanceBased then d.uniform else List.range (d.y.length - b)

/-- The entry of a list that a random number selects. -/
def picked (l : List Nat) (r : Nat) : Nat := l.getD (r % l.length) 0

end Verif.Datasets
