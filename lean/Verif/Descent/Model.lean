import Verif.Gradcheck.Model
import Verif.Training.Model
import Mathlib.Analysis.SpecialFunctions.Sqrt

/-!
# One step of the training loop

Models the loss of a shooting block in `demos/neurips20/simple_functional_mapping_example.py` (`compute_loss`, lines 334-372) and one round of the loop of lines 600-629: the gradients are set to zero, the loss
is computed, `backward` fills in the gradients, the optimizer changes the parameters, and with `--clamp_range` the particles are cut off.  `spiral.py:559-569` is the same round without the cut-off.

Taken from the documentation of torch: `optim.Adam` (line 134; `weight_decay` is 0 for shooting, line 570) and `optim.SGD`.  Parameters without a gradient are not changed.  The batch is one tensor of
fixed size and the prediction has the shape of the targets.
-/

namespace Verif.Descent
open Verif Verif.Flow Verif.Gradcheck

variable {K Ri H D Θ R : Type}

/-! ## The loss -/

/-- Lines 356-366 after the prediction: `pred_y - batch_out` fails for a dictionary, `args.norm_weight * norm_penalty` for `None`. -/
noncomputable def lossOf (noPenalty : Bool) (simWeight normWeight : ℝ) (target : List ℝ) (out : Py (Block.Out ℝ)) (pen : Py (Option ℝ)) : Py ℝ := do
  let o ← out
  let k ← pen
  match o.result, k with
  | .tensor t, some k => .ok (Training.functionalLoss true noPenalty simWeight normWeight t.data target k).loss
  | .tensor t, none => if noPenalty then .ok (Training.functionalLoss true true simWeight normWeight t.data target 0).loss else .error .typeError
  | _, _ => .error .typeError

/-- `compute_loss` (lines 350-372) of a shooting block as a function of its parameters, the particles `q` and the costates `p`. -/
noncomputable def demoLoss {Par : Type} (L : Whole.Lay K) (M : List ℝ → Method ℝ ℝ) (icfg : Θ → Nat → Integrand.Cfg ℝ (Trip ℝ) Par (Concat.TDicts ℝ) ℝ Ri H D)
    (s0 : Integrand.St ℝ Par ℝ H D × (Nat → Ri × Ri)) (cfg : Block.Cfg ℝ ℝ Θ R) (r : R) (noPenalty : Bool) (simWeight normWeight : ℝ) (X : Tensor ℝ) (target : List ℝ) (s : Block.St ℝ ℝ Θ) {n : Nat}
    (q p : Fin n × K → ℝ) : Py ℝ :=
  lossOf noPenalty simWeight normWeight target (Block.forward cfg r ⟨some X, none, none, none⟩ (withParams L s q p)).2 (penaltyAfter M icfg s0 cfg r ⟨some X, none, none, none⟩ (withParams L s q p))

/-! ## The optimizers -/

/-- `optim.SGD` without momentum on one number. -/
noncomputable def sgd (lr x g : ℝ) : ℝ := x - lr * g

/-- `optim.Adam` on one number at its `t`-th step: the new value and the new averages of the gradients and of their squares. -/
noncomputable def adam (lr β₁ β₂ ε : ℝ) (t : Nat) (m v x g : ℝ) : ℝ × ℝ × ℝ :=
  let m' := β₁ * m + (1 - β₁) * g
  let v' := β₂ * v + (1 - β₂) * g ^ 2
  (x - lr * (m' / (1 - β₁ ^ t) / (Real.sqrt (v' / (1 - β₂ ^ t)) + ε)), m', v')

/-- The first step of `optim.Adam`: the averages start at zero. -/
noncomputable def adamFirst (β₁ β₂ ε lr x g : ℝ) : ℝ := (adam lr β₁ β₂ ε 1 0 0 x g).1

/-! ## One round -/

/-- The entries of all parameters by name. -/
noncomputable def values (L : Whole.Lay K) {n : Nat} (q p : Fin n × K → ℝ) : SDict String (List ℝ) :=
  (Whole.enc L "" n q ++ Whole.enc L "p_" n p).map fun e => (e.1, e.2.data)

/-- The attribute `grad` of a parameter. -/
def gradOf (g : Grads) (nm : String) : Option (List ℝ) := (SDict.get? g nm).bind id

/-- `optimizer.step()` (line 621) with a rule for one number: parameters whose `grad` is `None` are left alone. -/
noncomputable def optStep (up : ℝ → ℝ → ℝ) (g : Grads) (ps : SDict String (List ℝ)) : SDict String (List ℝ) :=
  ps.map fun e => (e.1, ((gradOf g e.1).map fun l => List.zipWith up e.2 l).getD e.2)

/-- Lines 623-628 for one parameter: `clip nm` is the bound, `none` if the parameter is not cut off (all but `q1`, or no `--clamp_range`). -/
noncomputable def cutOff (clip : String → Option ℝ) (ps : SDict String (List ℝ)) : SDict String (List ℝ) :=
  ps.map fun e => (e.1, ((clip e.1).map fun b => Training.clampTo b e.2).getD e.2)

/-- Lines 600-629: the gradients and the parameters after one round.  `frozen nm` are the parameters with `requires_grad = False`: `backward` does not give them a gradient. -/
noncomputable def oneRound (L : Whole.Lay K) {n : Nat} (up : ℝ → ℝ → ℝ) (frozen : String → Bool) (clip : String → Option ℝ) (loss : (Fin n × K → ℝ) → (Fin n × K → ℝ) → Py ℝ) (q p : Fin n × K → ℝ) (g : Grads) :
    Py (Grads × SDict String (List ℝ)) := do
  let g := zeroGrads g
  let _ ← loss q p
  let g := accumulate ((derivatives L (fun q p => valueOr (loss q p)) q p).filter fun d => !frozen d.1) g
  .ok (g, cutOff clip (optStep up g (values L q p)))

end Verif.Descent
