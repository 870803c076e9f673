import Verif.Base.Tensor

/-!
# Specification vocabulary for striding
-/

namespace Verif.Striding
open Verif

/-- The stride requested for dimension `k` by a list of (stride, dimension) pairs, 1 if none. -/
def strideFor (ps : List (Nat × Nat)) (k : Nat) : Nat :=
  match ps with
  | [] => 1
  | p :: ps => if p.2 = k then p.1 else strideFor ps k

/-- The index in the original tensor of the entry that ends up at index `idx`: in a dimension of size `n`
strided by `s`, position `j` of the result is position `n mod s + s * j` of the original.  (For `s = 1` this is `j`.) -/
def sourceIndex (ps : List (Nat × Nat)) (shape idx : List Nat) : List Nat :=
  idx.mapIdx (fun (k j : Nat) => Tensor.dimSize shape k % strideFor ps k + strideFor ps k * j)

/-- The shape after striding: `⌊n / s⌋` in each dimension. -/
def targetShape (ps : List (Nat × Nat)) (shape : List Nat) : List Nat :=
  shape.mapIdx (fun (k n : Nat) => n / strideFor ps k)

end Verif.Striding
