import Verif.Base.Py
import Verif.Base.PDict
import Verif.Block.Model
import Mathlib.Data.Real.Basic
import Mathlib.Algebra.BigOperators.Group.Finset.Basic
import Mathlib.Algebra.Module.Pi
import Mathlib.Algebra.Algebra.Basic
import Mathlib.Algebra.Module.Prod

/-!
# The discrete networks of the demos

Models `/repo/demos/neurips20/simple_discrete_neural_networks.py`.  A tensor whose last dimension is indexed by `K` is a function `β × K → ℝ`,
where `β` indexes all other dimensions.  Convolutions are arbitrary functions.  Printed messages are not modelled.
-/

namespace Verif.Discrete
open Verif Block

variable {β K L I M V : Type}

/-- `nn.Linear`: weight and bias (`none`: `bias=False`). -/
structure Linear (K L : Type) where
  weight : L → K → ℝ
  bias : Option (L → ℝ)

def Linear.apply [Fintype K] (l : Linear K L) (x : β × K → ℝ) : β × L → ℝ := fun i =>
  (∑ k, l.weight i.2 k * x (i.1, k)) + match l.bias with | some b => b i.2 | none => 0

/-- `F.relu` -/
noncomputable def relu {J : Type} (x : J → ℝ) : J → ℝ := fun i => max 0 (x i)

/-- `replicate_modules`, lines 6-11; `mk i` is the module created in iteration `i`. -/
def replicateModules (mk : Nat → M) (n : Nat) : PDict String M :=
  (List.range n).foldl (fun d i => d.set ("l" ++ showNat i) (mk i)) []

/-- `nn.Sequential`: the modules one after the other. -/
def sequential (forward : M → V → V) (modules : PDict String M) (x : V) : V := modules.foldl (fun x m => forward m.2 x) x

/-- `SimpleResNetBlock`, lines 13-23. -/
noncomputable def simpleBlock (l1 : Linear Unit Unit) (x : β × Unit → ℝ) : β × Unit → ℝ := x + l1.apply (relu x)

/-- The parameters of a block with two layers. -/
structure Two (I : Type) where
  l1 : Linear Unit I
  l2 : Linear I Unit

/-- `UpDownResNetBlock`, lines 25-37. -/
noncomputable def upDownBlock [Fintype I] (p : Two I) (x : β × Unit → ℝ) : β × Unit → ℝ :=
  let y := p.l1.apply (relu x)
  let z := p.l2.apply (relu y)
  x + z

/-- The parameters of `UpDownDoubleResNetBlock` (and of `ResNetRNN`). -/
structure Double (I : Type) where
  l1 : Linear I Unit
  l2 : Linear Unit I

/-- `UpDownDoubleResNetBlock`, lines 39-55. -/
noncomputable def doubleBlock [Fintype I] (p : Double I) (x : (β × Unit → ℝ) × (β × I → ℝ)) : (β × Unit → ℝ) × (β × I → ℝ) :=
  let x1 := x.1 + p.l1.apply (relu x.2)
  let x2 := x.2 + p.l2.apply (relu x1)
  (x1, x2)

/-- `DoubleResNetUpDown`, lines 57-66; `ResNetUpDown`, lines 68-76; `ResNet`, lines 78-87. -/
noncomputable def doubleResNetUpDown [Fintype I] (mk : Nat → Double I) (n : Nat) :
    (β × Unit → ℝ) × (β × I → ℝ) → (β × Unit → ℝ) × (β × I → ℝ) := sequential doubleBlock (replicateModules mk n)

noncomputable def resNetUpDown [Fintype I] (mk : Nat → Two I) (n : Nat) : (β × Unit → ℝ) → β × Unit → ℝ := sequential upDownBlock (replicateModules mk n)

noncomputable def resNet (mk : Nat → Linear Unit Unit) (n : Nat) : (β × Unit → ℝ) → β × Unit → ℝ := sequential simpleBlock (replicateModules mk n)

/-- `for i in range(n)` with a body that does not use `i`. -/
def loop (f : V → V) (n : Nat) (x : V) : V := (List.range n).foldl (fun x _ => f x) x

/-- `DoubleResNetUpDownRNN`, lines 89-106. -/
noncomputable def doubleRNN [Fintype I] (p : Double I) (n : Nat) (x : (β × Unit → ℝ) × (β × I → ℝ)) : (β × Unit → ℝ) × (β × I → ℝ) := loop (doubleBlock p) n x

/-- `ResNetRNN`, lines 108-122. -/
noncomputable def resNetRNN [Fintype I] (p : Double I) (n : Nat) (x : β × Unit → ℝ) : β × Unit → ℝ :=
  loop (fun x => x + (1 / (n : ℝ)) • p.l1.apply (relu (p.l2.apply x))) n x

/-- `CNNResNetBlock`, lines 144-156, with its convolutions `conv1`, `conv2` and the activation between them. -/
noncomputable def cnnBlock [AddCommGroup V] [Module ℝ V] (nrLayers : Nat) (conv : V → V) (x : V) : V := x + (1 / (nrLayers : ℝ)) • conv x

/-- The hidden layers of `MyCNNResNet`, lines 158-178: `conv i` is `conv2(relu(conv1 ·))` of block `i`. -/
noncomputable def cnnResNet [AddCommGroup V] [Module ℝ V] (conv : Nat → V → V) (n : Nat) (x : V) : V :=
  sequential (cnnBlock n) (replicateModules conv n) x

/-- The hidden layers of `MyCNNResRecNet`, lines 180-206 (the group norm is not used in `forward`). -/
noncomputable def cnnRecNet [AddCommGroup V] [Module ℝ V] (conv : V → V) (n : Nat) (x : V) : V := loop (fun temp => temp + (1 / (n : ℝ)) • conv temp) n x

end Verif.Discrete
