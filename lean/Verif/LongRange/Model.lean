import Verif.Chunks.Model
import Verif.Block.Model

/-!
# Shooting blocks in the validation over a long range

`compute_validation_data` (`/repo/demos/neurips20/spiral.py:408-432`, `Verif.Chunks`) uses of a block `set_integration_time_vector`, the first value returned by
`forward` and `get_norm_penalty`.  Here these are those of the shooting block (`Verif.Block`).
-/

namespace Verif.LongRange
open Verif

variable {α T Θ R P : Type}

/-- `val[0, ...]`, `val[1, ...]`, ...: a tensor as the list of its values along the first dimension, the time. -/
def steps (t : Tensor α) : List (Tensor α) := (List.range (t.shape.headD 0)).map fun i => t.index0 i

/-- Line 424 assigns the first returned value to a part of a tensor, which only works for tensors. -/
def unpack : Block.Result α → Py (List (Tensor α))
  | .tensor t => .ok (steps t)
  | _ => .error .typeError

/-- The block of lines 408-432.  `pen` is `get_norm_penalty`; `r` are the random numbers new parameters are made of. -/
def asBlk [Zero α] (cfg : Block.Cfg α T Θ R) (r : R) (pen : Block.St α T Θ → P) : Chunks.Blk (Block.St α T Θ) T (Tensor α) P where
  setTimes := Block.setTimeVector
  call X s :=
    let f := Block.forward cfg r ⟨some X, none, none, none⟩ s
    (f.1, f.2.bind fun o => unpack o.result)
  penalty := pen

end Verif.LongRange
