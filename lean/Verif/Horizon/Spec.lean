import Verif.LongRange.Spec

/-!
# Values of a method with a step size

Nothing here is about the library.
-/

namespace Verif.Horizon
open Verif

variable {V : Type} [AddCommGroup V] [Module ℝ V]

/-- The value after a number of full steps of size `h` from time `t`. -/
def stepped (Φ : ℝ → ℝ → V → V) (h t : ℝ) (y : V) : ℕ → V
  | 0 => y
  | k + 1 => stepped Φ h t y k + h • Φ h (t + k * h) (stepped Φ h t y k)

/-- The number of full steps before time `s`. -/
noncomputable def before (h t s : ℝ) : ℕ := ⌈(s - t) / h⌉₊ - 1

/-- The value at time `s` of a method that goes from `t` to `e` in steps of size `h`, the last one being shorter if necessary: the straight line through the values at the two ends of the
step that contains `s`. -/
noncomputable def valueAt (Φ : ℝ → ℝ → V → V) (h t : ℝ) (y : V) (e s : ℝ) : V :=
  let k := before h t s
  let t0 := t + k * h
  let t1 := min (t0 + h) e
  Converge.between t0 t1 (stepped Φ h t y k) (stepped Φ h t y k + (t1 - t0) • Φ (t1 - t0) t0 (stepped Φ h t y k)) s

end Verif.Horizon
