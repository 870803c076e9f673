import Verif.Base.Py
import Verif.Base.SDict
import Verif.Base.PDict

/-!
# Layers whose parameters are moved into a dictionary (`overwrite_classes.py`)

`T` is the type of tensors, `W` the type of weights.  A torch module keeps its parameters in an ordered dictionary `_parameters`, whose
values may be `None` (no bias).
-/

namespace Verif.Layers
open Verif

variable {T W : Type}

/-- The part of a layer's state that `RemoveParameters` uses (`overwrite_classes.py:12-21`).  `parameterDict = none` is Python's `None`. -/
structure Layer (T W : Type) where
  parameters : PDict String (Option T)
  parameterDict : Option (SDict String T)
  weightDict : SDict String (Option W)
  weight : Option W

/-- `RemoveParameters.__init__(weight)` on a module with the given parameters (`overwrite_classes.py:12-21`). -/
def init (parameters : PDict String (Option T)) (weight : Option W) : Layer T W := ⟨parameters, none, [], weight⟩

/-- One round of the loop (`overwrite_classes.py:25-34`). Detaching and cloning keep the values. -/
def moveStep (d : SDict String T) (p : String × Option T) : SDict String T :=
  match p.2 with
  | some t => d.set p.1 t
  | none => d

/-- `_remove_parameters()` (`overwrite_classes.py:23-45`) -/
def removeParameters (l : Layer T W) : Layer T W :=
  let d := l.parameters.foldl moveStep []
  { l with
    parameters := []
    parameterDict := some d
    weightDict := (SDict.keys d).foldl (fun w k => w.set k l.weight) [] }

/-- `add_weight(parameter_name, parameter_weight)` (`overwrite_classes.py:47-50`).  `in None` raises `TypeError`. -/
def addWeight (l : Layer T W) (name : String) (w : Option W) : Py (Layer T W) :=
  match l.parameterDict with
  | none => .error .typeError
  | some d => if d.has name then .ok { l with weightDict := l.weightDict.set name w } else .error .valueError

/-- `_apply(fn)` (`overwrite_classes.py:58-63`): iterates over the keys and reassigns; only the parameters, not the weights. -/
def applyFn (fn : T → T) (l : Layer T W) : Py (Layer T W) :=
  match l.parameterDict with
  | none => .error .typeError
  | some d => .ok { l with parameterDict := some (SDict.mapVals fn d) }

/-- The kinds of layers (`overwrite_classes.py:89,111,137,170`). -/
inductive Kind | linear | linearDampening | conv2d | groupNorm
deriving DecidableEq, Repr

/-- The parameters a torch layer of this kind registers: a weight and a bias, or `None` for those that are switched off
(`nn.Linear`, `nn.Conv2d`: `bias=False`; `nn.GroupNorm`: `affine=False`). -/
def torchParameters (kind : Kind) (on : Bool) (weight bias : T) : PDict String (Option T) :=
  match kind with
  | .groupNorm => [("weight", if on then some weight else none), ("bias", if on then some bias else none)]
  | _ => [("weight", some weight), ("bias", if on then some bias else none)]

/-- Construction (`overwrite_classes.py:90-93`, `112-118`, `138-146`, `171-180`).  `on` is `bias` or `affine`; `damp` is the constant 0.1. -/
def construct (kind : Kind) (on : Bool) (weight bias damp : T) (w : Option W) : Layer T W :=
  let l : Layer T W := init (torchParameters kind on weight bias) w
  match kind with
  | .linearDampening => removeParameters { l with parameters := PDict.set l.parameters "dampening" (some damp) }
  | .groupNorm => if on then removeParameters l else { l with parameterDict := some [] }
  | _ => removeParameters l

/-- `d[k]` -/
def lookup (d : SDict String T) (k : String) : Py T :=
  match SDict.get? d k with
  | some v => .ok v
  | none => .error .keyError

/-- The parameters that `forward` hands to the torch function: weight, bias (if any), dampening (if any)
(`overwrite_classes.py:105-109`, `130-135`, `157-167`, `192-194`). -/
def forwardParameters (kind : Kind) (l : Layer T W) : Py (T × Option T × Option T) :=
  match l.parameterDict with
  | none => .error .typeError
  | some d =>
    match kind with
    | .linear =>
      if d.has "bias" then do .ok (← lookup d "weight", some (← lookup d "bias"), none)
      else do .ok (← lookup d "weight", none, none)
    | .linearDampening =>
      if d.has "bias" then do .ok (← lookup d "weight", some (← lookup d "bias"), some (← lookup d "dampening"))
      else do .ok (← lookup d "weight", none, some (← lookup d "dampening"))
    | .conv2d => do .ok (← lookup d "weight", some (← lookup d "bias"), none)
    | .groupNorm => do .ok (← lookup d "weight", some (← lookup d "bias"), none)

end Verif.Layers
