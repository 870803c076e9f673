import Verif.Base.Tensor
import Mathlib.Data.List.Basic

/-!
# Specification vocabulary for the enlargement
-/

namespace Verif.Enlarge
open Verif

variable {α : Type}

/-- Size `target` is at least `current` in every dimension (same number of dimensions). -/
def Fits (current target : List Nat) : Prop :=
  current.length = target.length ∧ ∀ (i c t : Nat), current[i]? = some c → target[i]? = some t → c ≤ t

/-- The position in the enlarged tensor of the entry at `idx`: shifted by `⌊(target - current) / 2⌋` in every dimension. -/
def shifted (current target idx : List Nat) : List Nat :=
  idx.mapIdx (fun (k i : Nat) => i + (Tensor.dimSize target k - Tensor.dimSize current k) / 2)

/-- `r` is an enlargement of `t` to size `target` with new values `new`: it has that size, the entries of `t` sit in the middle, and
altogether its entries are those of `t` and every new value exactly once. -/
structure Enlarged (t : Tensor α) (target : List Nat) (new : List α) (r : Tensor α) : Prop where
  wf : r.WF
  shape : r.shape = target
  keeps : ∀ idx x, t.get? idx = some x → r.get? (shifted t.shape target idx) = some x
  entries : r.data.Perm (t.data ++ new)

end Verif.Enlarge
