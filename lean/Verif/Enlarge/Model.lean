import Verif.Dicts.Model
import Verif.Base.DictLoop

/-!
# Enlarging pass-through states

Models `/repo/neuro_shooting/shooting_blocks.py`, lines 294-365 and 389-452.  Sizes are natural numbers, size
differences integers.  The parameters created by the initializers are an argument `mk` of the model (which block, which key, how
many); `create_parameters_of_size(n)` returns a one-dimensional tensor of `n` values.
-/

namespace Verif.Enlarge
open Verif

variable {α : Type}

/-- Lines 350-356: the size differences, dimension by dimension, starting at dimension `i`; a missing dimension of the desired
size is an `IndexError`, a negative difference a `ValueError`. -/
def diffLoop (desired : List Nat) : Nat → List Nat → Py (List Int)
  | _, [] => .ok []
  | i, c :: cs =>
    match desired[i]? with
    | none => .error .indexError
    | some d => if d < c then .error .valueError
        else do .ok (((d : Int) - c) :: (← diffLoop desired (i + 1) cs))

/-- `_create_raw_enlargement_parameters`, lines 294-308, for the two known data types: how many parameters. -/
def rawCount (desired current : List Nat) : Py Nat :=
  if vol desired < vol current then .error .valueError else .ok (vol desired - vol current)

/-- Lines 347-363: `None`, or the number of new parameters and the size differences. -/
def createOne (desired current : List Nat) : Py (Option (Nat × List Int)) := do
  let diff ← diffLoop desired 0 current
  if diff.any (fun x => decide (0 < x)) then do
    .ok (some (← rawCount desired current, diff))
  else .ok none

/-- Line 342: `desired_size[1] = current_size[1]`. -/
def setChannel (desired current : List Nat) : Py (List Nat) :=
  match current[1]?, desired[1]? with
  | some c, some _ => .ok (desired.set 1 c)
  | _, _ => .error .indexError

/-- What is stored for a tensor: nothing, or the new parameters and the size differences.  (The third component of the
stored tuple, the target size, is not used by the enlargement; see `createKey` for its value.) -/
abbrev Entry (α : Type) := Option (List α × List Int)

/-- Storing the entry of key `k` in the dictionary of a block, lines 334-337 and 358-363. -/
def store (enl : Dicts.DDict (Entry α)) (dk k : String) (e : Entry α) : Dicts.DDict (Entry α) :=
  enl.set dk (((enl.get? dk).getD []).set k e)

/-- Body of the loop over the blocks, lines 333-363.  The second component of the state is the *shared* tensor
`desired_size_incorrect_channel`: line 341 does not copy it. -/
def createStep (mk : String → String → Nat → List α) (k : String)
    (st : Dicts.DDict (Entry α) × List Nat) (b : String × SDict String (Tensor α)) :
    Py (Dicts.DDict (Entry α) × List Nat) := do
  match SDict.get? b.2 k with
  | none => .error .keyError
  | some t =>
    let desired ← setChannel st.2 t.shape
    let e ← createOne desired t.shape
    .ok (store st.1 b.1 k (e.map (fun c => (mk b.1 k c.1, c.2))), desired)

/-- Body of the loop over the keys, lines 329-363.  The returned size is the final value of the shared target size tensor, which is
the third component of every tuple stored for this key. -/
def createKey (mk : String → String → Nat → List α) (g : Dicts.DDict (Tensor α))
    (enl : Dicts.DDict (Entry α)) (p : String × Tensor α) : Py (Dicts.DDict (Entry α) × List Nat) :=
  g.foldlM (createStep mk p.1) (enl, p.2.shape)

/-- `_create_generic_dict_of_dicts_enlargement_parameters`, lines 310-365. -/
def create (mk : String → String → Nat → List α) (g : Dicts.DDict (Tensor α))
    (desired : Option (SDict String (Tensor α))) (dimensions : Option (List Nat)) :
    Py (Option (Dicts.DDict (Entry α))) :=
  match desired, dimensions with
  | some d, some _ => do
    let r ← d.foldlM (fun (enl : Dicts.DDict (Entry α)) p => do .ok (← createKey mk g enl p).1) []
    .ok (some r)
  | _, _ => .ok none

/-- `e_pars[lo:hi].view(size)`: a `RuntimeError` when the slice does not have the right number of elements. -/
def viewSlice (pars : List α) (lo : Nat) (size : List Nat) : Py (Tensor α) :=
  let d := (pars.drop lo).take (vol size)
  if d.length = vol size then .ok ⟨size, d⟩ else .error .runtimeError

/-- The loop of lines 403-426 from dimension `c` on; `indx` is the number of parameters used so far.  The three tensors
concatenated in line 421 agree in all other dimensions by construction. -/
def growLoop (pars : List α) : Nat → List Int → Tensor α → Nat → Py (Tensor α)
  | _, [], t, _ => .ok t
  | c, d :: ds, t, indx =>
    if 0 < d then
      if c < t.shape.length then do
        let begAdd := d.toNat / 2
        let endAdd := d.toNat - begAdd
        let b ← viewSlice pars indx (t.shape.set c begAdd)
        let indx1 := indx + vol (t.shape.set c begAdd)
        let e ← viewSlice pars indx1 (t.shape.set c endAdd)
        let indx2 := indx1 + vol (t.shape.set c endAdd)
        growLoop pars (c + 1) ds (Tensor.cat2 c (Tensor.cat2 c b t) e) indx2
      else .error .indexError
    else growLoop pars (c + 1) ds t indx

/-- `_enlarge_tensor`, lines 389-428. -/
def enlargeTensor (t : Tensor α) (pars : List α) (diff : List Int) : Py (Tensor α) :=
  match diff[1]? with
  | none => .error .indexError
  | some d => if d ≠ 0 then .error .valueError else growLoop pars 0 diff t 0

/-- Lines 447-450. -/
def enlargeEntry (x : Tensor α × Entry α) : Py (Tensor α) :=
  match x.2 with
  | some e => enlargeTensor x.1 e.1 e.2
  | none => .ok x.1

/-- `zip(a, b)` of two dictionaries, with the values looked up (lines 438, 446). -/
def zipItems {V W : Type} (a : SDict String V) (b : SDict String W) : SDict String (V × W) :=
  List.zipWith (fun p q => (p.1, (p.2, q.2))) a b

/-- `_enlarge_generic_dict_of_dicts`, lines 430-452. -/
def enlargeDicts (g : Dicts.DDict (Tensor α)) (enl : Option (Dicts.DDict (Entry α))) :
    Py (Dicts.DDict (Tensor α)) :=
  match enl with
  | none => .ok g
  | some e => SDict.mapLoop (fun x => SDict.mapLoop enlargeEntry (zipItems x.1 x.2)) (zipItems g e)

end Verif.Enlarge
