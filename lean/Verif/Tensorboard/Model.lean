import Verif.Base.Py
import Verif.Base.PDict
import Mathlib.Data.Real.Basic

/-!
# The hook for tensorboard (`neuro_shooting/tensorboard_shooting_hooks.py`)

The writer is the list of what it was told.  Weights are not looked at (`W`).
-/

namespace Verif.Tensorboard
open Verif

/-- A bias: of shape `[d]`, or of shape `[r, d]` (with hand-written formulas it is the mean over the particles of a tensor of shape `[particles, 1, d]`, `shooting_models.py:400, 1241-1252`). -/
inductive Bias where
  | vector (xs : List ℝ)
  | rows (xs : List (List ℝ))

/-- `bias[i].item()`: a tensor with more or less than one element cannot be converted (`ValueError`; newer versions of torch raise `RuntimeError`). -/
def Bias.item (i : Nat) : Bias → Py ℝ
  | .vector xs => match xs[i]? with
    | some x => .ok x
    | none => .error .indexError
  | .rows xs => match xs[i]? with
    | some [x] => .ok x
    | some _ => .error .valueError
    | none => .error .indexError

/-- A parameter object: its weight and bias, if it has them (`get_parameter_dict()`). -/
structure Layer (W : Type) where
  weight : Option W
  bias : Option Bias

/-- What the writer is told: a number or an image, with a name and the step. -/
inductive Entry (W : Type) where
  | scalar (tag : String) (x : ℝ) (step : Int)
  | image (tag : String) (w : W) (step : Int)

/-- A call of the hook: time, parameter objects and the custom data (`None`, or a dictionary of numbers). -/
structure Call (W : Type) where
  t : ℝ
  params : PDict String (Layer W)
  custom : Option (PDict String Int)

variable {W : Type}

/-- Lines 32-36: two numbers and an image; what was written before an exception stays written. -/
def write (weight : W) (bias : Bias) (epoch : Int) : List (Entry W) × Py Unit :=
  match bias.item 0 with
  | .error e => ([], .error e)
  | .ok b0 => match bias.item 1 with
    | .error e => ([.scalar "bias0" b0 epoch], .error e)
    | .ok b1 => ([.scalar "bias0" b0 epoch, .scalar "bias1" b1 epoch, .image "weight" weight epoch], .ok ())

/-- Lines 28-31: the first layer, its weight and its bias. -/
def first (params : PDict String (Layer W)) : Py (W × Bias) :=
  match params.get? "l1" with
  | none => .error .keyError
  | some l => match l.weight with
    | none => .error .keyError
    | some w => match l.bias with
      | none => .error .keyError
      | some b => .ok (w, b)

open Classical in
/-- `linear_transform_hook` (`tensorboard_shooting_hooks.py:9-36`); the batch is looked up but not used. -/
noncomputable def hook (c : Call W) : List (Entry W) × Py Unit :=
  match c.custom with
  | none => ([], .error .typeError)
  | some d =>
    let epoch := (d.get? "epoch").getD 0
    if c.t = 0 then
      if epoch % 10 = 0 then
        match first c.params with
        | .error e => ([], .error e)
        | .ok (w, b) => write w b epoch
      else ([], .ok ())
    else ([], .ok ())

/-- The calls during a training; the first exception ends it. -/
noncomputable def training : List (Call W) → List (Entry W) × Py Unit
  | [] => ([], .ok ())
  | c :: l => match hook c with
    | (es, .error e) => (es, .error e)
    | (es, .ok _) => (es ++ (training l).1, (training l).2)

end Verif.Tensorboard
