import Verif.Hooks.Spec
import Verif.Base.Py
import Verif.Base.PDict
import Mathlib.Analysis.Real.Sqrt
import Mathlib.Control.Monad.Basic

/-!
# The recording hook (`shooting_hooks.py`)

A tensor is a matrix or has another rank (then only the list of its elements matters).  `x.detach().cpu().numpy()` shares the memory
with `x` if `x` is on the CPU, so a record holds the address; for a tensor on another device it holds a copy.  Numbers are real.
-/

namespace Verif.Hooks
open Verif

/-- A tensor: a matrix, or the elements of a tensor of another rank. -/
inductive Tensor where
  | matrix (m n : ℕ) (a : Fin m → Fin n → ℝ)
  | other (xs : List ℝ)

/-- `torch.sum(x**2)` -/
noncomputable def Tensor.sumSq : Tensor → ℝ
  | .matrix _ _ a => ∑ i, ∑ j, a i j ^ 2
  | .other xs => (xs.map (· ^ 2)).sum

/-- A tensor object: where its elements are, and whether this is on the CPU. -/
structure Ref where
  addr : ℕ
  onCpu : Bool

/-- The memory. -/
abbrev Heap := ℕ → Tensor

/-- A numpy array: a view of the memory of a tensor, or memory of its own. -/
inductive Stored where
  | shared (addr : ℕ)
  | copy (t : Tensor)

/-- What the array contains when it is looked at. -/
def Stored.read (h : Heap) : Stored → Tensor
  | .shared a => h a
  | .copy t => t

/-- `x.detach().cpu().numpy()` -/
def store (h : Heap) (r : Ref) : Stored := if r.onCpu then .shared r.addr else .copy (h r.addr)

/-- A recorded value. -/
inductive Rec where
  | num (x : ℝ)
  | arr (s : Stored)

/-- `custom_hook_data`: whether it is a `defaultdict`, whether the default is an empty list, and its contents. -/
structure Custom where
  isDefaultdict : Bool
  makesList : Bool
  log : PDict String (List Rec)

/-- Exceptions together with the state that is left behind. -/
abbrev Run := ExceptT Err (StateM Custom)

/-- `custom_hook_data[k].append(v)`.  (If the default is not a list, `append` is missing; that the default value itself is stored then is not modelled.) -/
def emit (k : String) (v : Rec) : Run Unit := fun c =>
  match c.log.get? k with
  | some l => (.ok (), { c with log := c.log.set k (l ++ [v]) })
  | none => if c.makesList then (.ok (), { c with log := c.log.set k [v] }) else (.error .attributeError, c)

/-- A call that may raise and does not write records. -/
def lift {α : Type} (r : Py α) : Run α := fun c => (r, c)

/-- A dictionary of dictionaries of tensors. -/
abbrev Dict2 := SDict String (SDict String Ref)

/-- The arguments of the hook (`shooting_hooks.py:51-53`); of a parameter object only `get_parameter_dict()` is used. -/
structure Call where
  t : ℝ
  state : Dict2
  costate : Dict2
  data : Dict2
  dotState : Dict2
  dotCostate : Dict2
  dotData : Dict2
  params : Dict2

/-- `record_generic_dict_of_dicts` (`shooting_hooks.py:4-9`) -/
def recordDict (h : Heap) (d : Dict2) (dName : String) : Run Unit :=
  forM d fun b => forM b.2 fun s => emit (b.1 ++ "." ++ dName ++ "." ++ s.1) (.arr (store h s.2))

/-- `torch.norm(x, p='fro')**2` (`shooting_hooks.py:30`) -/
noncomputable def sqrFro (t : Tensor) : ℝ := Real.sqrt t.sumSq ^ 2

/-- The singular values `torch` computes. -/
abbrev Svd := (m n : ℕ) → (Fin m → Fin n → ℝ) → List ℝ

/-- `torch.norm(x, p='nuc')**2` (`shooting_hooks.py:35`): only matrices have a nuclear norm. -/
noncomputable def sqrNuc (sv : Svd) : Tensor → Py ℝ
  | .matrix m n a => .ok ((sv m n a).sum ^ 2)
  | .other _ => .error .runtimeError

/-- `S[0]**2` (`shooting_hooks.py:40-41`); reached for matrices only. -/
noncomputable def sqrSpe (sv : Svd) : Tensor → Py ℝ
  | .matrix m n a => match sv m n a with
    | [] => .error .indexError
    | s :: _ => .ok (s ^ 2)
  | .other _ => .error .runtimeError

/-- The local variables of `compute_parameter_norms`. -/
structure Norms where
  dict : PDict String ℝ
  fro : ℝ
  nuc : ℝ
  spe : ℝ

/-- The body of the inner loop (`shooting_hooks.py:27-43`). -/
noncomputable def normStep (sv : Svd) (h : Heap) (k : String) (a : Norms) (p : String × Ref) : Py Norms :=
  if p.1 = "bias" then .ok a
  else do
    let f := sqrFro (h p.2.addr)
    let n ← sqrNuc sv (h p.2.addr)
    let s ← sqrSpe sv (h p.2.addr)
    .ok ⟨((a.dict.set ("sqr_frobenius_norm_" ++ k ++ "." ++ p.1) f).set ("sqr_nuclear_norm_" ++ k ++ "." ++ p.1) n).set
      ("sqr_spectral_norm_" ++ k ++ "." ++ p.1) s, a.fro + f, a.nuc + n, a.spe + s⟩

/-- `compute_parameter_norms` (`shooting_hooks.py:11-49`) -/
noncomputable def computeNorms (sv : Svd) (h : Heap) (params : Dict2) : Py (PDict String ℝ) := do
  let a ← params.foldlM (fun a o => o.2.foldlM (normStep sv h o.1) a) (⟨[], 0, 0, 0⟩ : Norms)
  .ok (((a.dict.set "sum_sqr_frobenius_norm" a.fro).set "sum_sqr_nuclear_norm" a.nuc).set "sum_sqr_spectral_norm" a.spe)

/-- The body of the loop over the parameters (`shooting_hooks.py:68-71`).  `current_energy` is on the CPU and has one dimension; adding to it in place
something that is on another device raises. -/
noncomputable def energyStep (h : Heap) (k : String) (e : ℝ) (p : String × Ref) : Run ℝ := do
  emit (k ++ "." ++ p.1) (.arr (store h p.2))
  if p.2.onCpu then pure (e + 0.5 * (h p.2.addr).sumSq) else throw .runtimeError

/-- `parameter_evolution_hook` (`shooting_hooks.py:51-92`) -/
noncomputable def hook (sv : Svd) (h : Heap) (c : Call) : Run Unit := do
  if !(← get).isDefaultdict then throw .valueError
  emit "t" (.num c.t)
  let energy ← c.params.foldlM (fun e o => o.2.foldlM (energyStep h o.1) e) (0 : ℝ)
  emit "energy" (.num energy)
  recordDict h c.state "state"
  recordDict h c.costate "costate"
  recordDict h c.data "data"
  recordDict h c.dotState "dot_state"
  recordDict h c.dotCostate "dot_costate"
  recordDict h c.dotData "dot_data"
  let norms ← lift (computeNorms sv h c.params)
  forM norms fun e => emit e.1 (.num e.2)

/-- What happens around the hook: it is called (during an integration), or a tensor is overwritten in place (as optimizers do). -/
inductive Event where
  | call (c : Call)
  | write (addr : ℕ) (t : Tensor)

/-- A history: memory and records at the end; the first exception ends it. -/
noncomputable def history (sv : Svd) : List Event → Heap → Custom → Heap × Custom × Py Unit
  | [], h, c => (h, c, .ok ())
  | .write a t :: l, h, c => history sv l (Function.update h a t) c
  | .call x :: l, h, c =>
    match hook sv h x c with
    | (.error e, c') => (h, c', .error e)
    | (.ok _, c') => history sv l h c'

end Verif.Hooks
