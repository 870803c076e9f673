import Verif.Base.Py
import Mathlib.Analysis.SpecialFunctions.Log.Base

/-!
# Complexity measures (`validation_measures.py:4-35`)

`numpy` arrays are lists of real numbers.  `np.log2` of a number that is not positive is not a finite number (`-inf` or `nan`); so is then
the whole sum, also if the step is zero (`0 * -inf = nan`).  This is `none` below.
-/

namespace Verif.Complexity
open Verif

/-- `a[1:] - a[0:-1]` (`validation_measures.py:8-9`) -/
noncomputable def diffs : List ℝ → List ℝ
  | a :: b :: l => (b - a) :: diffs (b :: l)
  | _ => []

/-- `delta_t[delta_t < 0] = 0.0` (`validation_measures.py:11-13`) -/
noncomputable def clip (d : ℝ) : ℝ := if d < 0 then 0 else d

/-- `0.5*(a[0:-1] + a[1:])` (`validation_measures.py:15-16`) -/
noncomputable def mids : List ℝ → List ℝ
  | a :: b :: l => (1/2 * (a + b)) :: mids (b :: l)
  | _ => []

/-- `np.log2(x)`; `none` if the result is not finite -/
noncomputable def log2 (x : ℝ) : Option ℝ := if 0 < x then some (Real.logb 2 x) else none

/-- `np.sum(delta_t * logs)` for arrays of the same length; `none` if an entry is not finite -/
noncomputable def dot : List ℝ → List (Option ℝ) → Option ℝ
  | d :: ds, some l :: ls => (dot ds ls).map (d * l + ·)
  | _ :: _, none :: _ => none
  | _, _ => some 0

/-- `delta_t * logs` of arrays of lengths `m`, `n`: the same length, or one of them is repeated (length 1), otherwise
`ValueError` (numpy broadcasting, `validation_measures.py:18`). -/
noncomputable def sumProduct (ds : List ℝ) (ls : List (Option ℝ)) : Py (Option ℝ) :=
  if ds.length = ls.length then .ok (dot ds ls)
  else match ds, ls with
    | [d], ls => .ok (dot (List.replicate ls.length d) ls)
    | ds, [l] => .ok (dot ds (List.replicate ds.length l))
    | _, _ => .error .valueError

/-- One of the three measures (`validation_measures.py:8-18`, the same code at `:20-23` and `:25-28`), from the recorded times and one list of
recorded values. -/
noncomputable def measure (t vs : List ℝ) : Py (Option ℝ) := sumProduct ((diffs t).map clip) ((mids vs).map log2)

/-- The recorded data (`validation_measures.py:5-6`). -/
structure Data where
  t : List ℝ
  fro : List ℝ
  nuc : List ℝ
  spe : List ℝ

/-- `compute_complexity_measures(data)` (`validation_measures.py:4-35`): the three measures, in this order. -/
noncomputable def measures (d : Data) : Py (Option ℝ × Option ℝ × Option ℝ) := do
  let f ← measure d.t d.fro
  let n ← measure d.t d.nuc
  let s ← measure d.t d.spe
  .ok (f, n, s)

end Verif.Complexity
