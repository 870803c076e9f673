import Mathlib.Data.List.Basic

/-!
# What a figure over time should show

Nothing in this file mentions the code.
-/

namespace Verif.Figures

/-- All places in an array of a given shape. -/
def places : List ℕ → List (List ℕ)
  | [] => [[]]
  | a :: s => (List.range a).flatMap fun i => (places s).map (i :: ·)

/-- The number of dimensions in which the array is not of size one. -/
def width (s : List ℕ) : ℕ := (s.filter (· ≠ 1)).length

end Verif.Figures
