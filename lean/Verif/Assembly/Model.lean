import Verif.Base.Py
import Verif.Base.SDict
import Verif.Base.Tensor

/-!
# Assembling and disassembling tensors

Models `/repo/neuro_shooting/state_costate_and_data_dictionary_utils.py`, lines 8-170.
One-dimensional tensors (the assembled vectors) are plain lists.
-/

namespace Verif.Assembly
open Verif

variable {α : Type _}

/-- A `SortedDict` of tensors, keys are strings. -/
abbrev TDict (α : Type _) := SDict String (Tensor α)

/-- A `SortedDict` of `SortedDict`s of tensors. -/
abbrev TDicts (α : Type _) := SDict String (TDict α)

/-- Assembly plan of one dictionary: key ↦ shape (`SortedDict`, line 23). -/
abbrev Plan := SDict String (List Nat)

/-- Assembly plans of a dictionary of dictionaries (a plain `dict`, line 47; it is filled in the
sorted order of the block names and read in insertion order). -/
abbrev Plans := SDict String Plan

/-- The three assembly plans (`'state_dicts'`, `'costate_dicts'`, `'data_dicts'`, lines 75-78). -/
structure AllPlans where
  state : Plans
  costate : Plans
  data : Plans
  deriving DecidableEq, Repr

/-- `_assemble_generic_dict`, lines 8-35.  The loop of lines 24-26 builds the list of flattened
tensors and the plan; `none` stands for the pair `(None, None)` of an empty dictionary.  The type
check of line 19 cannot fail here because the argument is a sorted dictionary by typing. -/
def assembleDict (d : TDict α) : Option (List α × Plan) :=
  let r := d.foldl (fun (acc : List (List α) × Plan) p =>
      (acc.1 ++ [p.2.data], acc.2.set p.1 p.2.shape)) ([], [])
  if r.1.length > 0 then some (r.1.flatten, r.2) else none

/-- `_assemble_generic_dict_of_dicts`, lines 38-57. -/
def assembleDicts (d : TDicts α) : Option (List α) × Plans :=
  d.foldl (fun (acc : Option (List α) × Plans) p =>
      match assembleDict p.2 with
      | none => acc
      | some (v, plan) =>
        (match acc.1 with
          | none => some v
          | some w => some (w ++ v),
         acc.2 ++ [(p.1, plan)])) (none, [])

/-- `assemble_tensor`, lines 60-80.  `torch.cat` with a `None` operand raises a `TypeError`. -/
def assembleTensor (state costate data : TDicts α) : Py (List α × AllPlans) :=
  let s := assembleDicts state
  let c := assembleDicts costate
  let d := assembleDicts data
  match s.1, c.1, d.1 with
  | some sv, some cv, some dv => .ok (sv ++ cv ++ dv, ⟨s.2, c.2, d.2⟩)
  | _, _, _ => .error .typeError

/-- The tensor handed to `disassemble_tensor`: a vector, or a stack of equally long vectors
(`ncols` is the common length, kept so that the stack of zero vectors has a width). -/
inductive Input (α : Type _) where
  | vec (v : List α)
  | stack (ncols : Nat) (rows : List (List α))

/-- Python slice `v[a:b]` of a list (clipping at the end). -/
def slice (v : List α) (a b : Nat) : List α := (v.drop a).take (b - a)

/-- `x.view(shape)` of flat data: a `RuntimeError` unless the number of elements agrees. -/
def view (x : List α) (shape : List Nat) : Py (Tensor α) :=
  if x.length = vol shape then .ok ⟨shape, x⟩ else .error .runtimeError

/-- Body of the loop of `_disassemble_dict`, lines 97-109, for one key.
Line 98: for a rank-0 shape `torch.prod(torch.tensor(torch.Size([])))` is the float `1.0`, and using
it as a slice bound raises a `TypeError`.  Line 101 on a 2-dimensional input slices the leading
dimension and the `view` fails unless the sizes agree; line 105 on a 1-dimensional input raises an
`IndexError`. -/
def disassembleEntry (input : Input α) (shape : List Nat) (dim : Int) (incr : Nat) :
    Py (Tensor α × Nat) :=
  if shape = [] then .error .typeError
  else
    let len := vol shape
    if dim = 0 then
      match input with
      | .vec v => do
        let t ← view (slice v incr (incr + len)) shape
        .ok (t, incr + len)
      | .stack _ rs => do
        let t ← view (slice rs incr (incr + len)).flatten shape
        .ok (t, incr + len)
    else if dim = 1 then
      match input with
      | .vec _ => .error .indexError
      | .stack _ rs => do
        let t ← view (rs.map (fun r => slice r incr (incr + len))).flatten (rs.length :: shape)
        .ok (t, incr + len)
    else .error .valueError

/-- `_disassemble_dict`, lines 82-111. -/
def disassembleDict (input : Input α) (plan : Plan) (dim : Int) (incr : Nat) :
    Py (TDict α × Nat) :=
  plan.foldlM (fun (acc : TDict α × Nat) p => do
      let (t, incr') ← disassembleEntry input p.2 dim acc.2
      .ok (acc.1.set p.1 t, incr')) ([], incr)

/-- `_disassemble_dict_of_dicts`, lines 114-131. -/
def disassembleDicts (input : Input α) (plans : Plans) (dim : Int) (incr : Nat) :
    Py (TDicts α × Nat) :=
  plans.foldlM (fun (acc : TDicts α × Nat) p => do
      let (d, incr') ← disassembleDict input p.2 dim acc.2
      .ok (acc.1.set p.1 d, incr')) ([], incr)

/-- `disassemble_tensor`, lines 134-170. -/
def disassembleTensor (input : Input α) (plans : Option AllPlans) (dim : Int) :
    Py (TDicts α × TDicts α × TDicts α) :=
  if dim ≠ 0 ∧ dim ≠ 1 then .error .valueError
  else match plans with
    | none => .error .valueError
    | some p => do
      let (s, i1) ← disassembleDicts input p.state dim 0
      let (c, i2) ← disassembleDicts input p.costate dim i1
      let (d, _) ← disassembleDicts input p.data dim i2
      .ok (s, c, d)

end Verif.Assembly
