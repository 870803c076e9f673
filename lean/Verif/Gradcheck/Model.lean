import Verif.Whole.Model
import Verif.Flow.Model
import Verif.Shooting.Model

/-!
# The comparison of hand-written and automatic gradients

Models `/repo/tests/autograd_gradient_test.py`, and the norm penalty of a block after a forward pass (`shooting_blocks.py:255-256`).
-/

namespace Verif.Gradcheck
open Verif Verif.Flow

/-! ## The norm penalty after a forward pass -/

section
variable {α T Θ R σ : Type}

/-- The times of an integration (`shooting_blocks.py:694-703`): the vector of times if there is one, otherwise the integration time. -/
def timesOf (s : Block.St α T Θ) : Option (List T) :=
  match s.timeVector with
  | some v => some v
  | none => s.time

/-- The memory of the integrand after a forward pass (`shooting_blocks.py:631-703`): as in `Block.forward`, but what is kept of the integration is the memory instead of the values. -/
def memoryAfter [Add α] [Zero α] (M : List T → Method α T) (F : Θ → Nat → T → Trip α → σ → Py (Trip α × σ)) (s0 : σ) (cfg : Block.Cfg α T Θ R) (r : R) (i : Block.Inp α) (s : Block.St α T Θ) : Py σ :=
  match Block.checkInputs i with
  | .error e => .error e
  | .ok _ =>
    match Block.passThrough cfg r i.state i.costate s with
    | (_, .error e) => .error e
    | (s, .ok (ps, pc)) =>
      match Block.chooseData cfg i.x i.data with
      | .error e => .error e
      | .ok (data, pad) =>
        match Block.initial cfg data ps pc pad s with
        | (_, .error e) => .error e
        | (s, .ok (x0, plans)) =>
          match timesOf s with
          | none => .error .attributeError
          | some ts => (runVec x0.length (vecRhs plans (F s.theta s.dataDim)) (M ts) [x0] s0).map Prod.snd

/-- `get_norm_penalty` after a forward pass (`shooting_blocks.py:255-256`, `shooting_integrands.py:210-227`; `none` is `None`). -/
def penaltyAfter [Add α] [Zero α] {Par N H D Ri : Type} [LinearOrder T] [OfNat T 0] [Field N] (M : List T → Method α T) (icfg : Θ → Nat → Integrand.Cfg T (Trip α) Par (Concat.TDicts α) N Ri H D)
    (s0 : Integrand.St T Par N H D × (Nat → Ri × Ri)) (cfg : Block.Cfg α T Θ R) (r : R) (i : Block.Inp α) (s : Block.St α T Θ) : Py (Option N) :=
  (memoryAfter M (fun th dd => ofIntegrand (icfg th dd)) s0 cfg r i s).map fun m => m.1.penalty

end

/-! ## The loss -/

/-- The loss of line 126: the mean of the squares of the prediction and the norm penalty.  Squaring a dictionary and adding `None` are `TypeError`s. -/
noncomputable def lossOf (out : Py (Block.Out ℝ)) (pen : Py (Option ℝ)) : Py ℝ := do
  let o ← out
  let k ← pen
  match o.result, k with
  | .tensor t, some k => .ok ((t.data.map fun x => x ^ 2).sum / t.data.length + k)
  | _, _ => .error .typeError

variable {K P Ri H D Θ R : Type}

/-- The block with given values of its parameters: the particles and their costates. -/
noncomputable def withParams (L : Whole.Lay K) {n : Nat} (s : Block.St ℝ ℝ Θ) (q p : Fin n × K → ℝ) : Block.St ℝ ℝ Θ :=
  { s with state := some (Whole.enc L "" n q), costate := some (Whole.enc L "p_" n p) }

/-- Lines 122-126 as a function of the parameters. -/
noncomputable def testLoss {Par : Type} (L : Whole.Lay K) (M : List ℝ → Method ℝ ℝ) (icfg : Θ → Nat → Integrand.Cfg ℝ (Trip ℝ) Par (Concat.TDicts ℝ) ℝ Ri H D)
    (s0 : Integrand.St ℝ Par ℝ H D × (Nat → Ri × Ri)) (cfg : Block.Cfg ℝ ℝ Θ R) (r : R) (X : Tensor ℝ) (s : Block.St ℝ ℝ Θ) {n : Nat} (q p : Fin n × K → ℝ) : Py ℝ :=
  lossOf (Block.forward cfg r ⟨some X, none, none, none⟩ (withParams L s q p)).2 (penaltyAfter M icfg s0 cfg r ⟨some X, none, none, none⟩ (withParams L s q p))

/-! ## Gradients -/

/-- The attributes `grad` of the parameters by name; `none` is `None`. -/
abbrev Grads := List (String × Option (List ℝ))

/-- `zero_grads`, lines 16-21. -/
def zeroGrads (g : Grads) : Grads := g.map fun e => (e.1, e.2.map fun l => l.map fun _ => 0)

/-- What `backward` does with one attribute: the first time it is set, later the new values are added. -/
noncomputable def addTo (new : List ℝ) : Option (List ℝ) → Option (List ℝ)
  | none => some new
  | some old => some (List.zipWith (fun a b => a + b) old new)

/-- `backward`, line 129: every parameter that the loss depends on gets its gradient. -/
noncomputable def accumulate (new : SDict String (List ℝ)) (g : Grads) : Grads :=
  g.map fun e => (e.1, ((SDict.get? new e.1).map fun l => addTo l e.2).getD e.2)

/-- The partial derivatives of a loss with respect to all elements of all parameters. -/
noncomputable def derivatives (L : Whole.Lay K) {n : Nat} (ℓ : (Fin n × K → ℝ) → (Fin n × K → ℝ) → ℝ) (q p : Fin n × K → ℝ) : SDict String (List ℝ) :=
  (Whole.enc L "" n (Shooting.autograd (fun q' => ℓ q' p) q) ++ Whole.enc L "p_" n (Shooting.autograd (ℓ q) p)).map fun e => (e.1, e.2.data)

/-- The value of a loss that can raise an exception. -/
noncomputable def valueOr (x : Py ℝ) : ℝ :=
  match x with
  | .ok v => v
  | .error _ => 0

/-- Lines 132-141: copies of all gradients; `None` has no `detach`. -/
def recorded (g : Grads) : Py (List (String × List ℝ)) :=
  g.mapM fun e => match e.2 with
    | none => .error .attributeError
    | some l => .ok (e.1, l)

/-- Lines 116-141 for one setting of `use_analytic_solution`: a pass with other data (`init` is its exception, if any), the gradients set to zero, a pass, the loss, `backward`, the copies. -/
noncomputable def onePass (L : Whole.Lay K) {n : Nat} (init : Py Unit) (loss : (Fin n × K → ℝ) → (Fin n × K → ℝ) → Py ℝ) (q p : Fin n × K → ℝ) (g : Grads) : Py (Grads × List (String × List ℝ)) := do
  init
  let g := zeroGrads g
  let _ ← loss q p
  let g := accumulate (derivatives L (fun q p => valueOr (loss q p)) q p) g
  let c ← recorded g
  .ok (g, c)

/-! ## The comparison -/

/-- Lines 152-167 for one parameter: whether it passes.  The maximum of no elements (line 156) is a `RuntimeError`. -/
noncomputable def compareOne (tol : ℝ) (auto ana : List ℝ) : Py Bool :=
  if ana.map (fun x => decide (x ≠ 0)) = auto.map (fun x => decide (x ≠ 0)) then
    match (List.zipWith (fun a b => |a / b - 1|) (auto.filter fun x => decide (x ≠ 0)) (ana.filter fun x => decide (x ≠ 0))).max? with
    | none => .error .runtimeError
    | some m => .ok (decide (m < tol))
  else .ok false

/-- Lines 144-167: the numbers of passed and attempted comparisons. -/
noncomputable def compareAll (tol : ℝ) (ana : SDict String (List ℝ)) : List (String × List ℝ) → Nat × Nat → Py (Nat × Nat)
  | [], c => .ok c
  | e :: es, c =>
    match SDict.get? ana e.1 with
    | none => .error .keyError
    | some l =>
      match compareOne tol e.2 l with
      | .error e => .error e
      | .ok ok => compareAll tol ana es (if ok then c.1 + 1 else c.1, c.2 + 1)

/-- Lines 101-167 for one model: first with the hand-written formulas, then with automatic differentiation.  The parameters of the block are new, their gradients `None`. -/
noncomputable def checkModel (L : Whole.Lay K) {n : Nat} (tol : ℝ) (initAna initAuto : Py Unit) (ana auto : (Fin n × K → ℝ) → (Fin n × K → ℝ) → Py ℝ) (q p : Fin n × K → ℝ) (c : Nat × Nat) : Py (Nat × Nat) := do
  let g : Grads := ((L.names.map fun e => "" ++ e.1) ++ (L.names.map fun e => "p_" ++ e.1)).map fun nm => (nm, none)
  let (g, ra) ← onePass L initAna ana q p g
  let (_, rb) ← onePass L initAuto auto q p g
  compareAll tol ra rb c

end Verif.Gradcheck
