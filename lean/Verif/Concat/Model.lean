import Verif.Dicts.Model

/-!
# Concatenating and splitting blocks

Models `/repo/neuro_shooting/state_costate_and_data_dictionary_utils.py`, lines 326-391.
-/

namespace Verif.Concat
open Verif

variable {α : Type _}

abbrev TDict (α : Type _) := SDict String (Tensor α)
abbrev TDicts (α : Type _) := SDict String (TDict α)

/-- `torch.cat((a, b), dim=d)`: the dimension must exist (`IndexError`) and the other dimensions must
agree (`RuntimeError`); a tensor of shape `(0,)` is skipped (legacy rule of torch). -/
def cat (a b : Tensor α) (d : Int) : Py (Tensor α) :=
  if a.shape = [0] then
    match Tensor.normDim b.shape.length d with
    | none => .error .indexError
    | some _ => .ok b
  else if b.shape = [0] then
    match Tensor.normDim a.shape.length d with
    | none => .error .indexError
    | some _ => .ok a
  else
    match Tensor.normDim a.shape.length d with
    | none => .error .indexError
    | some k =>
      if Tensor.Compat k a.shape b.shape then .ok (Tensor.cat2 k a b) else .error .runtimeError

/-- Body of the inner loop, lines 335-349: any failure of `torch.cat` becomes a `ValueError`. -/
def catStep (dim : Int) (acc : TDict α) (p : String × Tensor α) : Py (TDict α) :=
  match acc.get? p.1 with
  | none => .ok (acc.set p.1 p.2)
  | some t =>
    match cat t p.2 dim with
    | .ok r => .ok (acc.set p.1 r)
    | .error _ => .error .valueError

/-- The loops of lines 333-349. -/
def catLoop (dim : Int) (d : TDicts α) (acc : TDict α) : Py (TDict α) :=
  d.foldlM (fun acc b => b.2.foldlM (catStep dim) acc) acc

/-- `_concatenate_dict_of_dicts`, lines 331-358.  `peekitem(0)` (line 353) of an empty dictionary
is an `IndexError`. -/
def concatDicts (d : TDicts α) (dim : Int) : Py (TDict α) := do
  let c ← catLoop dim d []
  match d with
  | [] => .error .indexError
  | b :: _ => if c.length ≠ b.2.length then .error .valueError else .ok c

/-- `_concatenate_named_dict_of_dicts_keeping_structure`, lines 326-329. -/
def concatNamed (d : TDicts α) (dim : Int) (name : String) : Py (TDicts α) := do
  let c ← concatDicts d dim
  .ok [(name, c)]

/-- Body of the inner loop of lines 369-389 for the pair `(kc, k)`.  The accumulator holds `c_ret` and
`indx` (a missing key of `indx` counts as 0, lines 370-371). -/
def splitStep (c g : TDict α) (dim : Int) (acc : TDict α × SDict String Nat)
    (kk : String × String) : Py (TDict α × SDict String Nat) :=
  let lo := (acc.2.get? kk.2).getD 0
  match g.get? kk.2 with
  | none => .error .keyError
  | some t =>
    if 0 ≤ dim ∧ dim ≤ 4 then
      match t.shape[dim.toNat]? with
      | none => .error .indexError
      | some n =>
        match c.get? kk.1 with
        | none => .error .keyError
        | some x =>
          if dim.toNat < x.shape.length then
            .ok (acc.1.set kk.1 (x.sliceDim dim.toNat lo (lo + n)), acc.2.set kk.2 (lo + n))
          else .error .indexError
    else .error .valueError

/-- Body of the outer loop, lines 365-389. -/
def splitBlock (c : TDict α) (dim : Int) (acc : TDicts α × SDict String Nat)
    (b : String × TDict α) : Py (TDicts α × SDict String Nat) := do
  let r ← (c.keys.zip b.2.keys).foldlM (splitStep c b.2 dim) ([], acc.2)
  .ok (acc.1.set b.1 r.1, r.2)

/-- `_deconcatenate_based_on_generic_dict_of_dicts`, lines 361-391. -/
def splitDicts (c : TDict α) (generic : TDicts α) (dim : Int) : Py (TDicts α) := do
  let r ← generic.foldlM (splitBlock c dim) ([], [])
  .ok r.1

end Verif.Concat
