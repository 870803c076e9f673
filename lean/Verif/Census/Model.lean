import Verif.ResNet.Model

/-!
# The named parameters of a residual network

Models `named_parameters` of `BasicResNet` (`/repo/neuro_shooting/res_net.py`) with the number of values of every parameter, as printed and compared by
`/repo/tests/striding_and_upsampling.py`.  `nn.Module.named_parameters` lists the parameters of the submodules in the order in which these were
assigned, with the name of the submodule and a dot in front; no parameter object is registered twice in the blocks considered here.
-/

namespace Verif.Census
open Verif Block ResNet

variable {α T Θ R β : Type}

/-- `numel()` of the object to which a registered name refers (shooting_blocks.py:549, 557, 576, 586).  Parameters of the integrand and
particle-free parameters are part of the trainable content `Θ` of a block; their sizes are not modelled. -/
def numel (s : St α T Θ) : Ref → Option Nat
  | .state k => (s.state.bind fun d => SDict.get? d k).map fun t => t.data.length
  | .costate k => (s.costate.bind fun d => SDict.get? d k).map fun t => t.data.length
  | .enlState b k => ((s.enlState.bind fun d => SDict.get? d b).bind fun d => SDict.get? d k).bind fun e => e.map fun x => x.1.length
  | .enlCostate b k => ((s.enlCostate.bind fun d => SDict.get? d b).bind fun d => SDict.get? d k).bind fun e => e.map fun x => x.1.length
  | .integrand _ => none
  | .free _ _ _ => none

/-- The parameters of one block under the name of its module. -/
def blockNamed (name : String) (s : St α T Θ) : List (String × Option Nat) := s.reg.map fun p => (name ++ "." ++ p.1, numel s p.2)

/-- The block at a position. -/
def blockAt (layers : List (List (Cfg α T Θ R × St α T Θ))) (p : Nat × Nat) : Option (Cfg α T Θ R × St α T Θ) := layers[p.1]?.bind fun l => l[p.2]?

/-- `initial_conv` (3x3 kernels with bias) and `batch_norm`, res_net.py:68-69. -/
def stemNamed (image first : Nat) : List (String × Option Nat) :=
  [("initial_conv.weight", some (first * image * 3 * 3)), ("initial_conv.bias", some first), ("batch_norm.weight", some first), ("batch_norm.bias", some first)]

/-- `last_linear`, res_net.py:86. -/
def headNamed (last classes : Nat) : List (String × Option Nat) := [("last_linear.weight", some (classes * last)), ("last_linear.bias", some classes)]

/-- `net.named_parameters()`: the stem, the blocks in the order of `add_module` (line 154), the head. -/
def named (image first last classes : Nat) (net : Net α T Θ R β) : List (String × Option Nat) :=
  stemNamed image first ++ (net.modules.flatMap fun m => (blockAt net.layers m.2).elim [] fun b => blockNamed m.1 b.2) ++ headNamed last classes

/-- What `count_print_and_compare_parameters` counts. -/
structure Counts where
  total : Nat
  passed : Nat
  failed : Nat
  deriving DecidableEq

/-- The body of the loop, striding_and_upsampling.py:14-31. -/
def countOne (target : PDict String Nat) (c : Counts) (p : String × Nat) : Counts :=
  match PDict.get? target p.1 with
  | some n => if n = p.2 then ⟨c.total + p.2, c.passed + 1, c.failed⟩ else ⟨c.total + p.2, c.passed, c.failed + 1⟩
  | none => ⟨c.total + p.2, c.passed, c.failed + 1⟩

/-- `count_print_and_compare_parameters`, striding_and_upsampling.py:5-38. -/
def compare (target : PDict String Nat) (l : List (String × Nat)) : Counts := l.foldl (countOne target) ⟨0, 0, 0⟩

/-- An optimiser step for all blocks of a network (the stem and the head are not changed by the model). -/
def trainNet (f : String → Ref → List α → List α) (g : String → Θ → Θ) (net : Net α T Θ R β) : Net α T Θ R β :=
  { net with layers := net.layers.map fun l => l.map fun b => (b.1, train (f b.1.name) (g b.1.name) b.2) }

/-- What can happen to a network. -/
inductive Event (α Θ R : Type) where
  | pass (r : R) (x : Tensor α)
  | train (f : String → Ref → List α → List α) (g : String → Θ → Θ)

def happen [Zero α] (net : Net α T Θ R β) : Event α Θ R → Net α T Θ R β
  | .pass r x => (forward net r x).1
  | .train f g => trainNet f g net

end Verif.Census
