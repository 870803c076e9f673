import Verif.Base.Py
import Mathlib.Order.Defs.LinearOrder

/-!
# Drawing training windows from a trajectory

Models `create_uniform_distance_selection_array` and `get_batch` of `/repo/demos/neurips20/spiral.py`.  A trajectory is the list of
its points.  Random draws are an argument.
-/

namespace Verif.Batches
open Verif

variable {α Y τ : Type}

/-- `l[0:stop]` with a possibly negative `stop`. -/
def pyTake (l : List α) (stop : Int) : List α := if stop < 0 then l.take (l.length + stop).toNat else l.take stop.toNat

/-- The distances between successive points, line 227. -/
def distances (dist : Y → Y → α) (y : List Y) : List α := List.zipWith dist y.tail y

/-- Line 229: the distances with the last one repeated (`dists[-1::1]` is the last one). -/
def allDistances (d : List α) : List α := d ++ d.drop (d.length - 1)

/-- The smallest entry; `min` of an empty tensor is an error (line 233). -/
def minimum [LinearOrder α] : List α → Py α
  | [] => .error .runtimeError
  | a :: l => .ok (l.foldl min a)

/-- Lines 231-240: the array of start indices, each as often as its distance says.  `ratio a m` is the rounded quotient as a 32 bit integer,
whatever floating point numbers make of it. -/
def selection [LinearOrder α] (ratio : α → α → Int) (d : List α) (batchTime : Int) : Py (List Nat) := do
  let d := pyTake d (-(batchTime - 1))
  let m ← minimum d
  .ok ((d.map fun a => ratio a m).zipIdx.flatMap fun p => List.replicate p.1.toNat p.2)

/-- `np.arange(n)`. -/
def arange (n : Int) : List Nat := List.range n.toNat

/-- `np.random.choice(a, size, replace=True)`: `draws` are the random numbers. -/
def choice (a : List Nat) (draws : List Nat) : Py (List Nat) :=
  match a with
  | [] => if draws = [] then .ok [] else .error .valueError
  | x :: l => .ok (draws.map fun d => (x :: l).getD (d % (x :: l).length) x)

/-- `y[s]` for a vector of indices that are not negative. -/
def gather (y : List Y) (s : List Nat) : Py (List Y) :=
  s.mapM fun i => match y[i]? with | some v => .ok v | none => .error .indexError

/-- `get_batch`, lines 264-277; `uniform` is the entry `uniform_sample_indices` (used if `distanceBased`).  Stacking an empty list is an error. -/
def getBatch (y : List Y) (t : List τ) (uniform : List Nat) (batchTime : Int) (distanceBased : Bool) (draws : List Nat) :
    Py (List Y × List τ × List (List Y)) := do
  let s ← choice (if distanceBased then uniform else arange (t.length - batchTime)) draws
  let y0 ← gather y s
  let ys ← (List.range batchTime.toNat).mapM fun i => gather y (s.map (· + i))
  if ys = [] then .error .runtimeError else .ok (y0, pyTake t batchTime, ys)

end Verif.Batches
