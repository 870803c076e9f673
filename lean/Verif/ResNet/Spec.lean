import Verif.ResNet.Model
import Verif.Block.ChainProps

/-!
# Specification of the residual network's data flow
-/

namespace Verif.ResNet
open Verif Block

variable {α T Θ R β : Type}

/-- A stage of the network: a block with its state, or a striding block. -/
inductive Stage (α T Θ R : Type) where
  | block (cfg : Cfg α T Θ R) (s : St α T Θ)
  | stride (p : Striding.Block)

/-- The stages of a network in the order in which the data pass them: the blocks of each layer, then its striding block. -/
def stages (layers : List (List (Cfg α T Θ R × St α T Θ))) (strides : List (Option Striding.Block)) : List (Stage α T Θ R) :=
  (layers.zip strides).flatMap fun l => l.1.map (fun b => .block b.1 b.2) ++ (l.2.map .stride).toList

/-- `Flow r l i os`: started with input `i`, the stages `l` succeed one after the other, every stage getting what the one before
it returned, and the blocks among them return `os`. -/
inductive Flow [Zero α] (r : R) : List (Stage α T Θ R) → Inp α → List (Out α) → Prop
  | nil (i : Inp α) : Flow r [] i []
  | block (cfg : Cfg α T Θ R) (s : St α T Θ) (l : List (Stage α T Θ R)) (i : Inp α) (o : Out α) (os : List (Out α)) :
      (Block.forward cfg r i s).2 = .ok o → Flow r l (passOn o) os → Flow r (.block cfg s :: l) i (o :: os)
  | stride (p : Striding.Block) (l : List (Stage α T Θ R)) (S C D S' C' D' : TDicts α) (os : List (Out α)) :
      Striding.forward p S C D = .ok (S', C', D') → Flow r l ⟨none, some S', some C', some D'⟩ os →
      Flow r (.stride p :: l) ⟨none, some S, some C, some D⟩ os

/-- What the head is applied to: the value returned by the last block — if there are at least two blocks. -/
def final (x : Tensor α) (os : List (Out α)) : Result α :=
  if os.length ≤ 1 then .tensor x else (os.getLast?.map Out.result).getD (.tensor x)

end Verif.ResNet
