import Verif.Evolution.Model

/-!
# Scaled costates

Nothing here is about the library: a triple of state, costate and data in which the costate is multiplied by a number.
-/

namespace Verif.Scale
open Verif.Evolution

variable {ι β K K' : Type}

/-- The same state and data, `c` times the costate. -/
def scaleCostate (c : ℝ) (z : Sys2 ι β K K') : Sys2 ι β K K' := (z.1, c • z.2.1, z.2.2)

end Verif.Scale
