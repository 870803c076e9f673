import Verif.Dicts.Model
import Verif.Base.DictLoop

/-!
# The striding block

Models `/repo/neuro_shooting/striding_block.py`.
-/

namespace Verif.Striding
open Verif

variable {α : Type}

/-- A constructor argument, by its Python type. -/
inductive Arg
  | int (n : Int)
  | tuple (l : List Int)
  | list (l : List Int)
  | other
  deriving DecidableEq

/-- The attributes set by the constructor. -/
structure Block where
  stride : List Int
  dims : List Int
  deriving DecidableEq

/-- Lines 14-21. -/
def dimsOf : Arg → Py (List Int)
  | .int n => .ok [n]
  | .tuple l => .ok l
  | .list l => .ok l
  | .other => .error .valueError

/-- Lines 25-38. -/
def stridesOf (nr : Nat) : Arg → Py (List Int)
  | .int n => .ok (List.replicate nr n)
  | .tuple l => if l.length ≠ nr then .error .valueError else .ok l
  | .list l => if l.length ≠ nr then .error .valueError else .ok l
  | .other => .error .valueError

/-- `__init__`, lines 11-38. -/
def construct (stride dims : Arg) : Py Block := do
  let d ← dimsOf dims
  let s ← stridesOf d.length stride
  .ok ⟨s, d⟩

/-- The positions of the slice `offset::stride` in a dimension of size `n`. -/
def slicePositions (n offset stride : Nat) : List Nat :=
  List.range' offset ((n - offset + (stride - 1)) / stride) stride

/-- `_stride_tensor_single_dimension`, lines 47-69.  A stride of 0 raises in the computation of the offset
(line 58), a negative one in the slice (torch: `ValueError`, step must be greater than zero). -/
def strideSingle (t : Tensor α) (stride dim : Int) : Py (Tensor α) :=
  if dim > (t.shape.length : Int) - 1 then .error .valueError
  else if dim < 2 then .error .valueError
  else if stride = 0 then .error .zeroDivision
  else if dim > 5 then .error .valueError
  else if stride < 0 then .error .valueError
  else
    let n := Tensor.dimSize t.shape dim.toNat
    let offset := n % stride.toNat
    .ok (t.select dim.toNat (slicePositions n offset stride.toNat))

/-- `_stride_tensor_multiple_dimensions`, lines 40-45. -/
def strideMany (t : Tensor α) (strides dims : List Int) (off : Int) : Py (Tensor α) :=
  (strides.zip dims).foldlM (fun t (p : Int × Int) => strideSingle t p.1 (p.2 + off)) t

/-- `_stride_dict`, lines 79-84. -/
def strideDict (strides dims : List Int) (off : Int) (d : SDict String (Tensor α)) :
    Py (SDict String (Tensor α)) :=
  SDict.mapLoop (fun t => strideMany t strides dims off) d

/-- `_stride_dict_of_dicts`, lines 71-77. -/
def strideDicts (strides dims : List Int) (off : Int) (d : Dicts.DDict (Tensor α)) :
    Py (Dicts.DDict (Tensor α)) :=
  SDict.mapLoop (strideDict strides dims off) d

/-- `forward`, lines 87-101 (all three dictionaries given). -/
def forward (b : Block) (state costate data : Dicts.DDict (Tensor α)) :
    Py (Dicts.DDict (Tensor α) × Dicts.DDict (Tensor α) × Dicts.DDict (Tensor α)) := do
  let s ← strideDicts b.stride b.dims 0 state
  let c ← strideDicts b.stride b.dims 0 costate
  let ss ← Dicts.sizeOfDicts state
  let sd ← Dicts.sizeOfDicts data
  let d ← strideDicts b.stride b.dims ((sd.length : Int) - ss.length) data
  .ok (s, c, d)

end Verif.Striding
