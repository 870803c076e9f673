import Verif.Converge.Spec
import Verif.Whole.Spec

/-!
# Fixed-grid solvers as they are used for the integration

The methods `euler`, `midpoint` and `rk4` of `torchdiffeq` (`generic_integrator.py:69, 100-109`) go from grid point to grid point; the values at requested times are
interpolated linearly.  `torchdiffeq` is not part of the repository; this describes what it does as a program over vectors (`Verif.Flow.Method`), in
exact arithmetic.  The step size of the options (`generic_integrator.py:91-95`) determines the grid.
-/

namespace Verif.Converge
open Verif Verif.Flow

/-- Linear interpolation of one element (`FixedGridODESolver._linear_interp`). -/
noncomputable def interp (t0 t1 y0 y1 t : ℝ) : ℝ := if t = t0 then y0 else if t = t1 then y1 else y0 + (y1 - y0) / (t1 - t0) * (t - t0)

/-- The stages of a step: each evaluates the right-hand side at a combination of the current value and the slopes `ks` found so far.  `n` vectors are known. -/
noncomputable def stagesProg (t h : ℝ) (cur : List ℝ → ℝ) (next : List (List ℝ → ℝ) → ℕ → Method ℝ ℝ) :
    List (ℝ × List ℝ) → List (List ℝ → ℝ) → ℕ → Method ℝ ℝ
  | [], ks, n => next ks n
  | s :: ss, ks, n =>
    .eval (t + s.1 * h) (fun rs => cur rs + h * Evolution.comb s.2 (ks.map fun k => k rs)) (stagesProg t h cur next ss (ks ++ [fun rs => rs.getD n 0]) (n + 1))

/-- The loop over the grid (`FixedGridODESolver.integrate`): `cur` is the value at time `t`, `req` are the requested times that are still missing, `outs` the
results so far. -/
noncomputable def solverLoop (T : Tableau) : List ℝ → ℕ → (List ℝ → ℝ) → ℝ → List ℝ → List (List ℝ → ℝ) → Method ℝ ℝ
  | [], _, _, _, _, outs => .done outs
  | t' :: grid, n, cur, t, req, outs =>
    stagesProg t (t' - t) cur (fun ks n' =>
      solverLoop T grid n' (fun rs => cur rs + (t' - t) * Evolution.comb T.weights (ks.map fun k => k rs)) t' (req.dropWhile (· ≤ t'))
        (outs ++ (req.takeWhile (· ≤ t')).map fun τ rs => interp t t' (cur rs) (cur rs + (t' - t) * Evolution.comb T.weights (ks.map fun k => k rs)) τ))
      T.stages [] n

/-- Strictly increasing. -/
noncomputable def increasing : List ℝ → Bool
  | t :: t' :: ts => decide (t < t') && increasing (t' :: ts)
  | _ => true

/-- A solver with a rule for the grid.  The requested times must increase, the grid must start and end with them (`AssertionError`s of `torchdiffeq`; an empty list of times is an
`IndexError`). -/
noncomputable def solver (T : Tableau) (grid : List ℝ → List ℝ) : List ℝ → Method ℝ ℝ
  | [] => .fail .indexError
  | t :: ts =>
    if increasing (t :: ts) = false then .fail .assertionError
    else if (grid (t :: ts)).head? ≠ some t ∨ (grid (t :: ts)).getLast? ≠ (t :: ts).getLast? then .fail .assertionError
    else solverLoop T (grid (t :: ts)).tail 1 (fun rs => rs.getD 0 0) t ts [fun rs => rs.getD 0 0]

/-- The grid for a step size (`_grid_constructor_from_step_size`): multiples of the step from the first time on; the last point is moved to the last time if it is
beyond. -/
noncomputable def stepGrid (h : ℝ) : List ℝ → List ℝ
  | [] => []
  | t :: ts =>
    let e := (t :: ts).getLast (by simp)
    let g := (List.range ⌈(e - t) / h + 1⌉.toNat).map fun i : ℕ => i * h + t
    match g.getLast? with
    | none => []
    | some l => if e < l then g.dropLast ++ [e] else g

end Verif.Converge
