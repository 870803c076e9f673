import Verif.Base.Py
import Verif.Base.SDict
import Verif.Base.Tensor
import Verif.Init.Model

/-!
# Sizes of states, derivatives and initial data of the model classes (`shooting_models.py`)

For every class: the sizes of the particles it creates, the sizes of the derivatives computed by `rhs_advect_state`, and the data
dictionary it makes from an input tensor.  The sizes of results of torch functions follow the torch documentation; a size that does not fit is
a `RuntimeError`.  What the small networks for initial conditions compute is arbitrary.  Elementwise functions keep the size
and are left out.
-/

namespace Verif.Shapes
open Verif Verif.Init

abbrev Shape := List Nat
abbrev Dict := SDict String Shape

/-! ## Torch -/

/-- `F.linear` with a weight of size `[o, i]` (`overwrite_classes.py:105-109`). -/
def linear (i o : Nat) (s : Shape) : Py Shape :=
  if s.getLast? = some i then .ok (s.dropLast ++ [o]) else .error .runtimeError

/-- `F.conv2d` with a weight of size `[o, i, k, k]` and padding `p` on a batch of images (`overwrite_classes.py:157-167`). -/
def conv (i o k p : Nat) (s : Shape) : Py Shape :=
  match s with
  | [n, c, h, w] =>
    if c = i ∧ 0 < k ∧ k ≤ h + 2 * p ∧ k ≤ w + 2 * p then .ok [n, o, h + 2 * p + 1 - k, w + 2 * p + 1 - k] else .error .runtimeError
  | _ => .error .runtimeError

/-- The size of `a + b`, `a - b` and `a * b`. -/
def bcast (a b : Shape) : Py Shape :=
  match bcastRev a.reverse b.reverse with
  | none => .error .runtimeError
  | some s => .ok s.reverse

/-- `nn.GroupNorm(c, c, affine=False)` keeps the size. -/
def groupNorm (c : Nat) (s : Shape) : Py Shape :=
  match s with
  | _ :: d :: _ => if d = c then .ok s else .error .runtimeError
  | _ => .error .runtimeError

/-! ## The classes -/

/-- The classes of `shooting_models.py`: lines 13, 130, 198, 410, 647, 926, 1126, 1268, 1341, 1417, 1480, 1650, 1839, 2069. -/
inductive Cls
  | dampenedUpDown | secondOrder | upDown | universal | general | debugSimple | simple | simpleConv | convBatch
  | optimalTransport | dampenedQ2 | symmetrized | periodic | upDownConv
deriving DecidableEq, Repr

/-- The constructor arguments that determine sizes; `inflation` and `filterSize` are not used by all classes. -/
structure Cfg where
  inFeatures : Nat
  particleDimension : Nat
  particleSize : PSize
  inflation : Nat
  filterSize : Nat

/-- `particle_size * inflation_factor`: a product, or a repeated list. -/
def times : PSize → Nat → PSize
  | .num m, k => .num (m * k)
  | .seq l, k => .seq (List.replicate k l).flatten

/-- `s[key]` -/
def look {V : Type} (s : SDict String V) (k : String) : Py V :=
  match SDict.get? s k with
  | some v => .ok v
  | none => .error .keyError

/-- `create_initial_state_parameters` with `n` particles: lines 33-58, 145-159, 239-254, 463-478, 688-703, 943-957, 1143-1152, 1288-1302,
1360-1375, 1433-1445, 1499-1514, 1669-1687, 1884-1899, 2119-2133.  The default initialisers are used (`Verif.Init`). -/
def stateShapes (cls : Cls) (c : Cfg) (n : Nat) : Py Dict :=
  match cls with
  | .dampenedUpDown => do
    let q1 ← sizeOf .vector n c.particleDimension c.particleSize
    let q2 ← sizeOf .vector n c.particleDimension (times c.particleSize c.inflation)
    let c1 ← sizeOf .vector n 1 (.num 1)
    .ok [("c1", c1), ("c2", c1), ("q1", q1), ("q2", q2)]
  | .upDown | .universal | .general | .dampenedQ2 | .periodic => do
    let q1 ← sizeOf .vector n c.particleDimension c.particleSize
    let q2 ← sizeOf .vector n c.particleDimension (times c.particleSize c.inflation)
    .ok [("q1", q1), ("q2", q2)]
  | .secondOrder | .debugSimple | .optimalTransport => do
    let q1 ← sizeOf .vector n c.particleDimension c.particleSize
    .ok [("q1", q1), ("q2", q1)]
  | .simple => do
    let q1 ← sizeOf .vector n c.particleDimension c.particleSize
    .ok [("q1", q1)]
  | .symmetrized => do
    let q1 ← sizeOf .vector n c.particleDimension c.particleSize
    let q2 ← sizeOf .vector n c.particleDimension (times c.particleSize c.inflation)
    .ok [("q1", q1), ("q2", q2), ("q3", q1)]
  | .simpleConv | .convBatch => do
    let q1 ← sizeOf .conv n c.particleDimension c.particleSize
    .ok [("q1", q1), ("q2", q1)]
  | .upDownConv => do
    let q1 ← sizeOf .conv n c.particleDimension c.particleSize
    let q2 ← sizeOf .conv n (c.particleDimension * c.inflation) c.particleSize
    .ok [("q1", q1), ("q2", q2)]

/-- `create_default_parameter_objects` (and `create_default_parameter_objects_on_consistent_device`, `shooting_integrands.py:471-489`, which only calls it) and `rhs_advect_state`: lines 60-105, 161-183, 256-278, 480-506, 705-742, 959-987, 1154-1177, 1304-1326,
1377-1402, 1447-1466, 1516-1538, 1689-1712, 1901-1926, 2135-2156. -/
def rhsShapes (cls : Cls) (c : Cfg) (s : Dict) : Py Dict :=
  let f := c.inFeatures
  let g := c.inFeatures * c.inflation
  match cls with
  | .dampenedUpDown => do
    let q1 ← look s "q1"
    let q2 ← look s "q2"
    let c1 ← look s "c1"
    let c2 ← look s "c2"
    let d1 ← bcast (← linear g f q2) (← bcast c1 q1)
    let d2 ← bcast (← linear f g q1) (← bcast c2 q2)
    .ok [("dot_c1", c1), ("dot_c2", c2), ("dot_q1", d1), ("dot_q2", d2)]
  | .secondOrder => do
    let d1 ← linear f f (← look s "q2")
    let d2 ← linear f f (← look s "q1")
    .ok [("dot_q1", d1), ("dot_q2", d2)]
  | .upDown => do
    let d1 ← linear g f (← look s "q2")
    let d2 ← linear f g (← look s "q1")
    .ok [("dot_q1", d1), ("dot_q2", d2)]
  | .universal => do
    let d1 ← linear g f (← look s "q2")
    let d2 ← bcast (← linear f g (← look s "q1")) (← linear g g (← look s "q2"))
    .ok [("dot_q1", d1), ("dot_q2", d2)]
  | .general => do
    let q1 ← look s "q1"
    let q2 ← look s "q2"
    let a ← bcast (← linear g f q2) (← linear f f q1)
    let a ← bcast a (← linear f f q1)
    let a ← bcast a (← linear g f q2)
    let b ← bcast (← linear f g q1) (← linear g g q2)
    let b ← bcast b (← linear g g q2)
    let b ← bcast b (← linear f g q1)
    let b ← bcast b q2
    .ok [("dot_q1", a), ("dot_q2", b)]
  | .debugSimple => do
    let d1 ← linear f f (← look s "q1")
    let d2 ← linear f f (← look s "q2")
    .ok [("dot_q1", d1), ("dot_q2", d2)]
  | .simple => do
    let d1 ← linear f f (← look s "q1")
    .ok [("dot_q1", d1)]
  | .simpleConv => do
    let d1 ← conv f f c.filterSize 1 (← look s "q2")
    let d2 ← conv f f c.filterSize 1 (← look s "q1")
    .ok [("dot_q1", d1), ("dot_q2", d2)]
  | .convBatch => do
    let d1 ← conv f f c.filterSize 1 (← look s "q2")
    let d2 ← conv f f c.filterSize 1 (← groupNorm f (← look s "q1"))
    .ok [("dot_q1", d1), ("dot_q2", d2)]
  | .optimalTransport => do
    let d1 ← linear f g (← look s "q2")
    let d2 ← linear g f (← look s "q1")
    .ok [("dot_q1", d1), ("dot_q2", d2)]
  | .dampenedQ2 => do
    let q2 ← look s "q2"
    let d1 ← linear g f q2
    let d2 ← bcast (← linear f g (← look s "q1")) q2
    .ok [("dot_q1", d1), ("dot_q2", d2)]
  | .symmetrized => do
    let d1 ← linear g f (← look s "q2")
    let d2 ← linear f g (← look s "q3")
    let d3 ← linear f g (← look s "q1")
    .ok [("dot_q1", d1), ("dot_q2", d2), ("dot_q3", d3)]
  | .periodic => do
    let q1 ← look s "q1"
    let d1 ← bcast (← linear g f (← look s "q2")) (← linear f f q1)
    let d2 ← linear f g q1
    .ok [("dot_q1", d1), ("dot_q2", d2)]
  | .upDownConv => do
    let d1 ← conv g f c.filterSize 1 (← look s "q2")
    let d2 ← conv f g c.filterSize 1 (← look s "q1")
    .ok [("dot_q1", d1), ("dot_q2", d2)]

/-! ## Initial data -/

/-- How the part of the data that is not the input starts. -/
inductive Mode | zero | direct | linear | miniNN
deriving DecidableEq, Repr

/-- `optimize_over_data_initial_conditions(_type)` (`lower` is the type in lower case): lines 216-236, 440-460, 665-685, 1857-1881, 2093-2116.
The other classes ignore the option. -/
def modeOf (cls : Cls) (optimize : Bool) (lower : String) : Py Mode :=
  match cls, optimize with
  | .upDown, true | .universal, true | .general, true | .periodic, true =>
    if lower = "direct" then .ok .direct
    else if lower = "linear" then .ok .linear
    else if lower = "mini_nn" then .ok .miniNN
    else .error .valueError
  | .upDownConv, true =>
    if lower = "linear" then .ok .linear
    else if lower = "mini_nn" then .ok .miniNN
    else .error .valueError
  | _, _ => .ok .zero

variable {α : Type}

/-- The trainable content: the values of `data_q20` (as they are stored) and what the networks compute. -/
structure Learned (α : Type) where
  q20 : List α
  net1 : Tensor α → List α
  net2 : Tensor α → List α

/-- A network applied to a tensor: the size by torch's rules, arbitrary values. -/
def apply (size : Shape → Py Shape) (values : Tensor α → List α) (x : Tensor α) : Py (Tensor α) := do
  let s ← size x.shape
  .ok ⟨s, values x⟩

/-- `torch.zeros(sz)` -/
def zeros [Zero α] (s : Shape) : Tensor α := ⟨s, List.replicate (vol s) 0⟩

/-- `x.repeat([1, ..., 1, k])`: the last dimension is repeated; `sz[-1]` of an empty list is an `IndexError`. -/
def repeatLast (k : Nat) (x : Tensor α) : Py (Tensor α) :=
  match x.shape.getLast? with
  | none => .error .indexError
  | some n => .ok ⟨x.shape.dropLast ++ [n * k],
      (Tensor.rows n (vol x.shape.dropLast) x.data).flatMap fun r => (List.replicate k r).flatten⟩

/-- `zeros_like(x).repeat(sz)` with `sz[d] = k`. -/
def zerosRepeat [Zero α] (d k : Nat) (x : Tensor α) : Py (Tensor α) :=
  match x.shape[d]? with
  | none => .error .indexError
  | some n => .ok (zeros (x.shape.set d (n * k)))

/-- The `direct` mode, lines 287-295: `data_q20` of size `[particle_dimension, particle_size*inflation]` is repeated for all
leading dimensions of `x` (for a tensor with fewer than two dimensions it is used as it is). -/
def direct (c : Cfg) (q20 : List α) (x : Tensor α) : Py (Tensor α) :=
  match times c.particleSize c.inflation with
  | .num m =>
    let lead := x.shape.take (x.shape.length - 2)
    .ok ⟨lead ++ [c.particleDimension, m], (List.replicate (vol lead) q20).flatten⟩
  | .seq _ => .error .typeError

/-- `q2` of the classes with the option: lines 284-310, 512-538, 748-774, 1933-1959. -/
def startQ2 [Zero α] (c : Cfg) (m : Mode) (l : Learned α) (x : Tensor α) : Py (Tensor α) :=
  let f := c.inFeatures
  let g := c.inFeatures * c.inflation
  match m with
  | .zero => zerosRepeat (x.shape.length - 1) c.inflation x
  | .direct => direct c l.q20 x
  | .linear => apply (linear f g) l.net1 x
  | .miniNN => do
    let y ← apply (linear f 10) l.net1 x
    apply (linear 10 g) l.net2 y

/-- `get_initial_data_dict_from_data_tensor`: lines 107-123, 185-191, 280-312, 508-540, 744-776, 1113-1119, 1256-1261, 1328-1334, 1404-1410, 1468-1473,
1540-1552, 1714-1726, 1928-1961, 2159-2197. -/
def initialData [Zero α] (cls : Cls) (c : Cfg) (m : Mode) (l : Learned α) (x : Tensor α) : Py (SDict String (Tensor α)) :=
  match cls with
  | .dampenedUpDown => do
    let q2 ← zerosRepeat (x.shape.length - 1) c.inflation x
    match x.shape with
    | [] => .error .indexError
    | n :: s => .ok [("c1", zeros (n :: List.replicate s.length 1)), ("c2", zeros (n :: List.replicate s.length 1)), ("q1", x), ("q2", q2)]
  | .upDown | .universal | .general | .periodic => do
    let q2 ← startQ2 c m l x
    .ok [("q1", x), ("q2", q2)]
  | .dampenedQ2 => do
    let q2 ← zerosRepeat (x.shape.length - 1) c.inflation x
    .ok [("q1", x), ("q2", q2)]
  | .secondOrder | .debugSimple | .optimalTransport | .simpleConv | .convBatch => .ok [("q1", x), ("q2", zeros x.shape)]
  | .simple => .ok [("q1", x)]
  | .symmetrized => do
    let q2 ← repeatLast c.inflation x
    .ok [("q1", x), ("q2", q2), ("q3", x)]
  | .upDownConv =>
    let d := c.particleDimension
    let e := c.particleDimension * c.inflation
    match m with
    | .linear => do
      let _ ← apply (conv d e 1 0) l.net1 x
      .ok [("q1", x), ("q2", x)]
    | .miniNN => do
      let y ← apply (conv d e 1 0) l.net1 x
      let q2 ← apply (conv e e 2 0) l.net2 y
      .ok [("q1", x), ("q2", q2)]
    | _ => do
      let q2 ← zerosRepeat 1 c.inflation x
      .ok [("q1", x), ("q2", q2)]

end Verif.Shapes
