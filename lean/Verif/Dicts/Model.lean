import Verif.Base.Py
import Verif.Base.SDict
import Verif.Base.Tensor

/-!
# Dictionary utilities

Models `/repo/neuro_shooting/state_costate_and_data_dictionary_utils.py`, lines 173-323 and 393-481.
-/

namespace Verif.Dicts
open Verif

variable {V : Type _}

/-- A dictionary of dictionaries with entries of type `V` (tensors, or whatever autograd returns). -/
abbrev DDict (V : Type _) := SDict String (SDict String V)

/-- The copying loop of lines 204-205. -/
def copyDict (d : SDict String V) : SDict String V :=
  d.foldl (fun acc p => acc.set p.1 p.2) []

/-- Lines 192-195: a dictionary of dictionaries with only the block itself, if there is one. -/
def single (dict : Option (SDict String V)) (name : String) : DDict V :=
  match dict with
  | some g => SDict.set [] name g
  | none => []

/-- `_merge_state_costate_or_data_dict_with_generic_dict_of_dicts`, lines 173-207. -/
def merge (dict : Option (SDict String V)) (dicts : Option (DDict V)) (name : String) :
    Py (DDict V) :=
  if (match dicts with | some d => d.has name | none => false) = true then .error .valueError
  else
    match dicts with
    | none => .ok (single dict name)
    | some d => .ok (d.foldl (fun acc p => acc.set p.1 (copyDict p.2)) (single dict name))

/-- Loop body shared by lines 224-226, 248-250 and 273-275: store `data_tuple[indx]` under
`prefix + k` and advance `indx`.  Tuple indexing out of range is an `IndexError`. -/
def takeNext (tuple : List V) (pre : String) (acc : SDict String V × Nat) (k : String) :
    Py (SDict String V × Nat) :=
  match tuple[acc.2]? with
  | none => .error .indexError
  | some x => .ok (acc.1.set (pre ++ k) x, acc.2 + 1)

/-- `extract_dict_from_tuple_based_on_generic_dict`, lines 210-228 (only the keys of the dictionary
are used). -/
def extractDict {W : Type _} (tuple : List V) (generic : SDict String W) (pre : String) :
    Py (SDict String V) := do
  let r ← generic.keys.foldlM (takeNext tuple pre) ([], 0)
  .ok r.1

/-- Body of the outer loop of lines 244-250 / 268-275. -/
def takeBlock {W : Type _} (tuple : List V) (pre : String) (acc : DDict V × Nat)
    (b : String × SDict String W) : Py (DDict V × Nat) := do
  let r ← b.2.keys.foldlM (takeNext tuple pre) ([], acc.2)
  .ok (acc.1.set b.1 r.1, r.2)

/-- `extract_dict_of_dicts_from_tuple_based_on_generic_dict_of_dicts`, lines 231-251.
Lines 254-277 (`extract_dict_from_tuple_based_on_parameter_objects`) are the same loop over the
parameter dictionaries of the objects. -/
def extractDicts {W : Type _} (tuple : List V) (generic : DDict W) (pre : String) :
    Py (DDict V) := do
  let r ← generic.foldlM (takeBlock tuple pre) ([], 0)
  .ok r.1

/-- `compute_tuple_from_generic_dict_of_dicts`, lines 280-295. -/
def tupleOfDicts (d : DDict V) : List V :=
  d.foldl (fun acc b => b.2.foldl (fun acc p => acc ++ [p.2]) acc) []

/-- `compute_tuple_from_generic_dict`, lines 298-310. -/
def tupleOfDict (d : SDict String V) : List V := d.foldl (fun acc p => acc ++ [p.2]) []

/-- `compute_tuple_from_parameter_objects`, lines 313-323: `None` parameters are skipped.
A parameter object is represented by its parameter dictionary. -/
def tupleOfParameterObjects (objs : DDict (Option V)) : List V :=
  objs.foldl (fun acc o => o.2.foldl (fun acc p =>
    match p.2 with
    | none => acc
    | some x => acc ++ [x]) acc) []

/-- `extract_dict_from_tuple_based_on_parameter_objects`, lines 254-277: `None` parameters are
*not* skipped. -/
def extractParameterObjects {W : Type _} (tuple : List V) (objs : DDict (Option W))
    (pre : String) : Py (DDict V) := do
  let r ← objs.foldlM (takeBlock tuple pre) ([], 0)
  .ok r.1

/-! ## Sizes and zero dictionaries -/

variable {α : Type _}

/-- `torch.zeros(sz)` -/
def zeros [Zero α] (sz : List Nat) : Tensor α := ⟨sz, List.replicate (vol sz) 0⟩

/-- `_get_zero_dict_like`, lines 393-397. -/
def zeroDictLike [Zero α] (d : SDict String (Tensor α)) : SDict String (Tensor α) :=
  d.foldl (fun acc p => acc.set p.1 (zeros p.2.shape)) []

/-- `extract_size_from_dict`, lines 412-415; `peekitem(0)` of an empty dictionary is an
`IndexError`. -/
def sizeOfDict (d : SDict String (Tensor α)) : Py (List Nat) :=
  match d with
  | [] => .error .indexError
  | p :: _ => .ok p.2.shape

/-- `extract_size_from_dict_of_dicts`, lines 407-410. -/
def sizeOfDicts (d : DDict (Tensor α)) : Py (List Nat) :=
  match d with
  | [] => .error .indexError
  | b :: _ => sizeOfDict b.2

/-- `extract_batch_size_from_dict_of_dicts`, lines 399-401. -/
def batchSizeOfDicts (d : DDict (Tensor α)) : Py Nat := do
  let sz ← sizeOfDicts d
  match sz[0]? with
  | some n => .ok n
  | none => .error .indexError

/-- `extract_channel_size_from_dict_of_dicts`, lines 403-405. -/
def channelSizeOfDicts (d : DDict (Tensor α)) : Py Nat := do
  let sz ← sizeOfDicts d
  match sz[1]? with
  | some n => .ok n
  | none => .error .indexError

/-- List item assignment `l[i] = x` (`IndexError` when out of range). -/
def listSet (l : List Nat) (i x : Nat) : Py (List Nat) :=
  if i < l.length then .ok (l.set i x) else .error .indexError

/-- `_get_zero_dict_like_with_matched_batch_size`, lines 417-423. -/
def zeroDictBatch [Zero α] (d : SDict String (Tensor α)) (batch : Nat) :
    Py (SDict String (Tensor α)) :=
  d.foldlM (fun (acc : SDict String (Tensor α)) p => do
    let sz ← listSet p.2.shape 0 batch
    .ok (acc.set p.1 (zeros sz))) []

/-- `_get_zero_dict_like_with_matched_batch_and_channel_size`, lines 425-432. -/
def zeroDictBatchChannel [Zero α] (d : SDict String (Tensor α)) (batch channel : Nat) :
    Py (SDict String (Tensor α)) :=
  d.foldlM (fun (acc : SDict String (Tensor α)) p => do
    let sz ← listSet p.2.shape 0 batch
    let sz ← listSet sz 1 channel
    .ok (acc.set p.1 (zeros sz))) []

/-- Body of the loop of lines 440-447.  `target_sz = sample_size_data` (line 444) does not copy, so
the list that was modified for one key is the starting point for the next; the accumulator
carries it. -/
def zeroDataStep [Zero α] (stateDim dataDim : Nat) (acc : SDict String (Tensor α) × List Nat)
    (p : String × Tensor α) : Py (SDict String (Tensor α) × List Nat) := do
  match p.2.shape[stateDim]? with
  | none => .error .indexError
  | some n =>
    let target ← listSet acc.2 dataDim n
    .ok (acc.1.set p.1 (zeros target), target)

/-- `_get_zero_data_dict_matching_state_dim`, lines 434-449. -/
def zeroDataDict [Zero α] (state : SDict String (Tensor α)) (data : DDict (Tensor α))
    (stateDim dataDim : Nat) : Py (SDict String (Tensor α)) := do
  let sample ← sizeOfDicts data
  let r ← state.foldlM (zeroDataStep stateDim dataDim) ([], sample)
  .ok r.1

/-- `get_data_concatenation_dim`, lines 451-465. -/
def dataConcatDim (state : Option (SDict String (Tensor α))) (data : DDict (Tensor α))
    (stateDim : Nat) : Py (Option Nat) :=
  match state with
  | none => .ok none
  | some s => do
    let sd ← sizeOfDicts data
    let ss ← sizeOfDict s
    if sd.length < ss.length then .error .valueError
    else .ok (some (stateDim + (sd.length - ss.length)))

/-! ## Key extraction -/

/-- The two kinds of results of `extract_key_from_dict_of_dicts`. -/
inductive Extracted (V : Type _) where
  | value (x : V)
  | blocks (d : DDict V)
  deriving DecidableEq

/-- Lines 471-475: the dictionary with only the entry for `key`, if there is one. -/
def onlyKey (key : String) (c : SDict String V) : SDict String V :=
  match c.get? key with
  | some x => SDict.set [] key x
  | none => []

/-- `extract_key_from_dict_of_dicts`, lines 468-481. -/
def extractKey (d : DDict V) (key : String) : Py (Extracted V) :=
  let ret : DDict V := d.foldl (fun acc b => acc.set b.1 (onlyKey key b.2)) []
  match ret with
  | [b] => match b.2 with
    | [] => .error .indexError
    | p :: _ => .ok (.value p.2)
  | _ => .ok (.blocks ret)

end Verif.Dicts
