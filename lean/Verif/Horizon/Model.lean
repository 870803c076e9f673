import Verif.LongRange.Model

/-!
# All times at once, or one time after the other

The script `/repo/tests/integration_time_test.py` predicts the values at several times in two ways (lines 101-115).
-/

namespace Verif.Horizon
open Verif

variable {α T Θ R : Type}

/-- Lines 101-102: set all times (`set_integration_time_vector`, `/repo/neuro_shooting/shooting_blocks.py:265-269`) and predict once. -/
def allAtOnce [Zero α] [OfNat T 0] (cfg : Block.Cfg α T Θ R) (r : R) (X : Tensor α) (ts : List T) (s : Block.St α T Θ) : Block.St α T Θ × Py (List (Tensor α)) :=
  let f := Block.forward cfg r ⟨some X, none, none, none⟩ (Block.setTimeVector ts s)
  (f.1, f.2.bind fun o => LongRange.unpack o.result)

/-- Line 111: the result is assigned to a part of a tensor, which only works for tensors. -/
def single : Block.Result α → Py (Tensor α)
  | .tensor t => .ok t
  | _ => .error .typeError

/-- Lines 110-111: set one time (`set_integration_time`, `shooting_blocks.py:261-263`) and predict. -/
def oneTime [Zero α] [OfNat T 0] (cfg : Block.Cfg α T Θ R) (r : R) (X : Tensor α) (t : T) (s : Block.St α T Θ) : Block.St α T Θ × Py (Tensor α) :=
  let f := Block.forward cfg r ⟨some X, none, none, none⟩ (Block.setTime t s)
  (f.1, f.2.bind fun o => single o.result)

/-- Lines 109-112: the loop over `t[1:]`.  An error ends it. -/
def loop [Zero α] [OfNat T 0] (cfg : Block.Cfg α T Θ R) (r : R) (X : Tensor α) : List T → Block.St α T Θ → Block.St α T Θ × Py (List (Tensor α))
  | [], s => (s, .ok [])
  | t :: ts, s =>
    match oneTime cfg r X t s with
    | (s', .error e) => (s', .error e)
    | (s', .ok v) =>
      let rest := loop cfg r X ts s'
      (rest.1, rest.2.map fun vs => v :: vs)

/-- Lines 105-112: `pred_step_by_step` starts with the data. -/
def oneByOne [Zero α] [OfNat T 0] (cfg : Block.Cfg α T Θ R) (r : R) (X : Tensor α) (ts : List T) (s : Block.St α T Θ) : Block.St α T Θ × Py (List (Tensor α)) :=
  let l := loop cfg r X ts.tail s
  (l.1, l.2.map fun vs => X :: vs)

end Verif.Horizon
