import Verif.Converge.Spec
import Mathlib.Analysis.Calculus.FDeriv.Basic

/-!
# The order of a Runge-Kutta method

Butcher's conditions, written for tableaux with any number of stages.
-/

namespace Verif.Order
open Verif Verif.Converge

/-- What the conditions need to know of a stage: its node `c`, and the sums of its coefficients times `c`, times `c²` and times `ac` of the earlier stages. -/
structure Node where
  c : ℝ
  ac : ℝ
  acc : ℝ
  aac : ℝ

/-- The nodes of the stages; `ns` are those of the earlier ones. -/
noncomputable def nodes : List (ℝ × List ℝ) → List Node → List Node
  | [], ns => ns
  | s :: ss, ns =>
    nodes ss (ns ++ [⟨s.1, Evolution.comb s.2 (ns.map Node.c), Evolution.comb s.2 (ns.map fun n => n.c ^ 2), Evolution.comb s.2 (ns.map Node.ac)⟩])

/-- The coefficients of every stage belong to earlier stages and sum to its node; `n` is the number of earlier stages. -/
def RowSums : List (ℝ × List ℝ) → ℕ → Prop
  | [], _ => True
  | s :: ss, n => s.2.length ≤ n ∧ s.2.sum = s.1 ∧ RowSums ss (n + 1)

/-- The weighted sum of a quantity of the stages. -/
noncomputable def weighted (T : Tableau) (F : Node → ℝ) : ℝ := Evolution.comb T.weights ((nodes T.stages []).map F)

/-- The conditions for order `p` (up to 4). -/
structure HasOrder (T : Tableau) (p : ℕ) : Prop where
  pos : 1 ≤ p
  le4 : p ≤ 4
  rows : RowSums T.stages 0
  consistent : T.Consistent
  two : 2 ≤ p → weighted T Node.c = 1 / 2
  three : 3 ≤ p → weighted T (fun n => n.c ^ 2) = 1 / 3 ∧ weighted T Node.ac = 1 / 6
  four : 4 ≤ p → weighted T (fun n => n.c ^ 3) = 1 / 4 ∧ weighted T (fun n => n.c * n.ac) = 1 / 8 ∧ weighted T Node.acc = 1 / 12 ∧ weighted T Node.aac = 1 / 24

end Verif.Order
