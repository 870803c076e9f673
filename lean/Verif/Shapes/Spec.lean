import Verif.Base.SDict
import Verif.Base.Tensor

/-!
# What "the sizes fit" means
-/

namespace Verif.Shapes
open Verif

/-- The derivative of the entry `k` is called `dot_k` and has the size of `k`. -/
def dots (s : SDict String (List Nat)) : SDict String (List Nat) := s.map fun p => ("dot_" ++ p.1, p.2)

/-- The sizes of the tensors of a dictionary. -/
def sizes {α : Type} (d : SDict String (Tensor α)) : SDict String (List Nat) := d.map fun p => (p.1, p.2.shape)

end Verif.Shapes
