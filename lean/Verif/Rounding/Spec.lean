import Verif.Converge.Spec
import Verif.Whole.Spec

/-!
# Inexact execution of an integration method

Nothing here is about the library: what it means that a method is carried out with rounding errors.
-/

namespace Verif.Rounding
open Verif Verif.Flow Verif.Evolution Verif.Whole

variable {ι β K K' : Type} [Fintype ι] [Fintype β] [Fintype K] [Fintype K']

/-- A run of a method in which nothing is computed exactly: the point where the right-hand side is evaluated is off by at most `η` (the accumulated error of the additions and multiplications that lead to it), the
value of the right-hand side by at most `δ`, the returned vectors and the sums used for decisions by at most `η`.  Errors can differ from operation to operation in any way. -/
inductive Inexact (fld : ℝ → Sys2 ι β K K' → Sys2 ι β K K') (δ η : ℝ) : Method ℝ ℝ → List (Sys2 ι β K K') → Py (List (Sys2 ι β K K')) → Prop
  | done {outs : List (List ℝ → ℝ)} {zs Ys : List (Sys2 ι β K K')} (h : List.Forall₂ (fun g Y => ‖Y - combine g zs‖ ≤ η) outs Ys) : Inexact fld δ η (.done outs) zs (.ok Ys)
  | fail {e : Err} {zs : List (Sys2 ι β K K')} : Inexact fld δ η (.fail e) zs (.error e)
  | eval {t : ℝ} {g : List ℝ → ℝ} {next : Method ℝ ℝ} {zs : List (Sys2 ι β K K')} {r : Py (List (Sys2 ι β K K'))} (x k : Sys2 ι β K K') (hx : ‖x - combine g zs‖ ≤ η) (hk : ‖k - fld t x‖ ≤ δ)
      (h : Inexact fld δ η next (zs ++ [k]) r) : Inexact fld δ η (.eval t g next) zs r
  | test {q : List ℝ → ℝ} {next : ℝ → Method ℝ ℝ} {zs : List (Sys2 ι β K K')} {r : Py (List (Sys2 ι β K K'))} (s : ℝ) (hs : |s - sumAll (combine q zs)| ≤ η)
      (h : Inexact fld δ η (next s) zs r) : Inexact fld δ η (.test q next) zs r

/-! ## Arithmetic step by step -/

section
variable {E : Type} [NormedAddCommGroup E] [NormedSpace ℝ E]

/-- The slopes of one step from the value `z` at time `t`, with errors: `ks` are those known so far. -/
inductive RSlopes (f : ℝ → E → E) (δ ρ h t : ℝ) (z : E) : List (ℝ × List ℝ) → List E → List E → Prop
  | nil {ks : List E} : RSlopes f δ ρ h t z [] ks ks
  | cons {s : ℝ × List ℝ} {ss : List (ℝ × List ℝ)} {ks ls : List E} (x k : E) (hx : ‖x - (z + h • comb s.2 ks)‖ ≤ ρ) (hk : ‖k - f (t + s.1 * h) x‖ ≤ δ)
      (rest : RSlopes f δ ρ h t z ss (ks ++ [k]) ls) : RSlopes f δ ρ h t z (s :: ss) ks ls

/-- Steps from the value `z` at time `t` to the points of a grid, with the values at the requested times: each vector that is computed is off by at most `ρ` from what the formula gives for the vectors that
were computed before, each value of the right-hand side by at most `δ`.  The errors of the steps add up. -/
inductive Rounded (T : Converge.Tableau) (f : ℝ → E → E) (δ ρ : ℝ) : ℝ → E → List ℝ → List ℝ → List E → Prop
  | stop {t : ℝ} {z : E} {req : List ℝ} : Rounded T f δ ρ t z [] req []
  | step {t t' : ℝ} {z : E} {grid req : List ℝ} {outs rest : List E} (ks : List E) (z' : E) (hks : RSlopes f δ ρ (t' - t) t z T.stages [] ks)
      (hz : ‖z' - (z + (t' - t) • comb T.weights ks)‖ ≤ ρ) (ho : List.Forall₂ (fun Y τ => ‖Y - Converge.between t t' z z' τ‖ ≤ ρ) outs (req.takeWhile (· ≤ t')))
      (hr : Rounded T f δ ρ t' z' grid (req.dropWhile (· ≤ t')) rest) : Rounded T f δ ρ t z (t' :: grid) req (outs ++ rest)

/-- The results of a solver for the requested times and a grid that starts with the first of them; the first result is the initial value. -/
def RoundedRun (T : Converge.Tableau) (f : ℝ → E → E) (δ ρ : ℝ) (z : E) (grid times : List ℝ) (Ys : List E) : Prop :=
  ∃ t g ts Zs, grid = t :: g ∧ times = t :: ts ∧ Ys = z :: Zs ∧ Rounded T f δ ρ t z g ts Zs
end

end Verif.Rounding
