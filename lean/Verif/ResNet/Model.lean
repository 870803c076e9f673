import Verif.Block.Model
import Verif.Striding.Model

/-!
# The residual network

Models `BasicResNet` of `/repo/neuro_shooting/res_net.py` on top of the models of blocks and striding blocks.  The shooting model class
with its keyword arguments is a function from the arguments of a block to a new block; the stem (convolution, batch norm,
nonlinearity) and the head (max pooling, linear layer) are functions.  Defaults of the constructor and printed messages are not
modelled; numbers of channels and blocks are natural numbers.
-/

namespace Verif.ResNet
open Verif Block

variable {α T Θ R β : Type}

/-- `_compute_nr_of_additional_channels`, lines 125-133; `prev` is the number of channels of the layer before. -/
def additionalFrom (prev : Int) : List Nat → List Int
  | [] => []
  | c :: cs => ((c : Int) - prev) :: additionalFrom c cs

def additional : List Nat → List Int
  | [] => []
  | c :: cs => (c : Int) :: additionalFrom c cs

/-- The arguments of `_create_one_shooting_block`, lines 98-123. -/
structure BlockSpec where
  name : String
  channels : Nat
  particleSize : List Nat
  particleDimension : Int
  onlyPassThrough : Bool
  deriving DecidableEq

/-- Line 143. -/
def blockName (layer block : Nat) : String := "shooting_layer" ++ "_" ++ showNat layer ++ "_" ++ showNat block

/-- The blocks of one layer, lines 141-155. -/
def createLayer (layer channels nrOfBlocks : Nat) (size : List Nat) (dim : Int) : List BlockSpec :=
  (List.range nrOfBlocks).map fun b => ⟨blockName layer b, channels, size, dim, decide (0 < b)⟩

/-- The loop of `_create_shooting_layers`, lines 140-156, from layer `i` on; too short lists are an `IndexError` (for an empty layer
only the number of blocks is looked up). -/
def createLayersFrom (blocks : List Nat) (sizes : List (List Nat)) (dims : List Int) : Nat → List Nat → Py (List (List BlockSpec))
  | _, [] => .ok []
  | i, c :: cs =>
    match blocks[i]? with
    | none => .error .indexError
    | some 0 => do .ok ([] :: (← createLayersFrom blocks sizes dims (i + 1) cs))
    | some (n + 1) =>
      match sizes[i]?, dims[i]? with
      | some s, some d => do .ok (createLayer i c (n + 1) s d :: (← createLayersFrom blocks sizes dims (i + 1) cs))
      | _, _ => .error .indexError

/-- `_create_shooting_layers`, lines 135-158. -/
def createLayers (channels blocks : List Nat) (sizes : List (List Nat)) : Py (List (List BlockSpec)) :=
  createLayersFrom blocks sizes (additional channels) 0 channels

/-- Line 71. -/
def downsampling (n : Nat) (stride : Option Int) : List (Option Int) := List.replicate (n - 1) stride ++ [none]

/-- `_create_striding_blocks`, lines 162-171. -/
def createStriding (strides : List (Option Int)) : Py (List (Option Striding.Block)) :=
  strides.mapM fun s =>
    match s with
    | none => .ok none
    | some s => do .ok (some (← Striding.construct (.list [s, s]) (.list [2, 3])))

/-- A network. -/
structure Net (α T Θ R β : Type) where
  stem : Tensor α → Py (Tensor α)
  layers : List (List (Cfg α T Θ R × St α T Θ))
  strides : List (Option Striding.Block)
  head : Result α → Py β
  /-- `_forward_not_yet_executed` -/
  notYet : Bool
  /-- the submodules registered in line 154, by name: the layer and the position of the block -/
  modules : PDict String (Nat × Nat)

/-- `add_module` for every block, line 154. -/
def registerBlocks (layers : List (List BlockSpec)) : PDict String (Nat × Nat) :=
  (layers.zipIdx.flatMap fun l => l.1.zipIdx.map fun b => (b.1.name, (l.2, b.2))).foldl (fun reg p => reg.set p.1 p.2) []

/-- `__init__`, lines 17-88: the number of particle sizes is compared with the number of layers, and there must be a first
layer (line 68). -/
def construct (model : BlockSpec → Py (Cfg α T Θ R × St α T Θ)) (stem : Tensor α → Py (Tensor α)) (head : Result α → Py β)
    (channels blocks : List Nat) (sizes : List (List Nat)) (stride : Option Int) : Py (Net α T Θ R β) := do
  if channels.length ≠ sizes.length then .error .valueError
  else if channels = [] then .error .indexError
  else
    let specs ← createLayers channels blocks sizes
    let layers ← specs.mapM fun l => l.mapM model
    let strides ← createStriding (downsampling channels.length stride)
    .ok ⟨stem, layers, strides, head, true, registerBlocks specs⟩

/-- The dictionaries that are carried along: states, costates, data. -/
abbrev Dicts3 (α : Type) := TDicts α × TDicts α × TDicts α

/-- The local variables of `forward`.  `is_first` is true exactly as long as the dictionaries are unbound. -/
structure Loop (α : Type) where
  ret : Result α
  dicts : Option (Dicts3 α)

/-- Lines 186-191. -/
def blockInput (x : Tensor α) : Option (Dicts3 α) → Inp α
  | none => ⟨some x, none, none, none⟩
  | some d => ⟨none, some d.1, some d.2.1, some d.2.2⟩

/-- Lines 185-191: one block.  The value returned by the first block is ignored (line 186 assigns it to `_`). -/
def runBlock [Zero α] (r : R) (x : Tensor α) (b : Cfg α T Θ R × St α T Θ) (L : Loop α) : (Cfg α T Θ R × St α T Θ) × Py (Loop α) :=
  match Block.forward b.1 r (blockInput x L.dicts) b.2 with
  | (s, .error e) => ((b.1, s), .error e)
  | (s, .ok o) => ((b.1, s), .ok ⟨if L.dicts.isNone then L.ret else o.result, some (o.state, o.costate, o.data)⟩)

/-- Lines 184-191: the blocks of a layer. -/
def runBlocks [Zero α] (r : R) (x : Tensor α) : List (Cfg α T Θ R × St α T Θ) → Loop α → List (Cfg α T Θ R × St α T Θ) × Py (Loop α)
  | [], L => ([], .ok L)
  | b :: bs, L =>
    match runBlock r x b L with
    | (b, .error e) => (b :: bs, .error e)
    | (b, .ok L) => let (bs, y) := runBlocks r x bs L; (b :: bs, y)

/-- Lines 194-197. -/
def runStride (p : Option Striding.Block) (L : Loop α) : Py (Loop α) :=
  match p, L.dicts with
  | none, _ => .ok L
  | some _, none => .error .unboundLocal
  | some p, some d => do
    let d' ← Striding.forward p d.1 d.2.1 d.2.2
    .ok ⟨L.ret, some d'⟩

/-- The loop of lines 183-197, over the zipped lists. -/
def runLayers [Zero α] (r : R) (x : Tensor α) : List (List (Cfg α T Θ R × St α T Θ)) → List (Option Striding.Block) → Loop α →
    List (List (Cfg α T Θ R × St α T Θ)) × Py (Loop α)
  | bs :: l, p :: ps, L =>
    match runBlocks r x bs L with
    | (bs, .error e) => (bs :: l, .error e)
    | (bs, .ok L) =>
      match runStride p L with
      | .error e => (bs :: l, .error e)
      | .ok L => let (l, y) := runLayers r x l ps L; (bs :: l, y)
  | l, _, L => (l, .ok L)

/-- `forward`, lines 173-206. -/
def forward [Zero α] (net : Net α T Θ R β) (r : R) (x : Tensor α) : Net α T Θ R β × Py β :=
  match net.stem x with
  | .error e => (net, .error e)
  | .ok x =>
    match runLayers r x net.layers net.strides ⟨.tensor x, none⟩ with
    | (l, .error e) => ({ net with layers := l }, .error e)
    | (l, .ok L) =>
      match net.head L.ret with
      | .error e => ({ net with layers := l }, .error e)
      | .ok y => ({ net with layers := l, notYet := false }, .ok y)

/-- `parameters`, lines 90-95: whether the parameters can be listed. -/
def parameters (net : Net α T Θ R β) : Py Unit := if net.notYet then .error .valueError else .ok ()

end Verif.ResNet
