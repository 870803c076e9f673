import Verif.Concat.Model

/-!
# Specification vocabulary for concatenation
-/

namespace Verif.Concat
open Verif

variable {α : Type _}

/-- The tensors stored under `k` in the blocks, in block order. -/
def column (d : TDicts α) (k : String) : List (Tensor α) := d.filterMap (fun b => SDict.get? b.2 k)

/-- Total size of the tensors stored under `k` in dimension `dim`. -/
def columnSize (dim : Nat) (d : TDicts α) (k : String) : Nat :=
  ((column d k).map (fun t => Tensor.dimSize t.shape dim)).sum

/-- The blocks fit together in dimension `dim`: the same keys in all blocks, well-formed tensors, and
for every key the shapes agree outside dimension `dim`. -/
structure Fits (dim : Nat) (d : TDicts α) : Prop where
  sorted : SDict.Sorted d
  sortedInner : ∀ b ∈ d, SDict.Sorted b.2
  sameKeys : ∀ b ∈ d, ∀ b' ∈ d, SDict.keys b.2 = SDict.keys b'.2
  wf : ∀ b ∈ d, ∀ p ∈ b.2, p.2.WF
  compat : ∀ k, ∀ t ∈ column d k, ∀ t' ∈ column d k, Tensor.Compat dim t.shape t'.shape

end Verif.Concat
