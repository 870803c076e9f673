import Mathlib.Data.Real.Basic
import Mathlib.Logic.Equiv.Defs

/-! # Rearranging rows -/

namespace Verif.Evolution

/-- The tensor whose row `i` is row `g i` of `x`.  For a permutation `g` this permutes the rows; for an injective `g` it selects
rows; for a constant `g` it repeats one row. -/
def rows {κ κ' K : Type} (g : κ → κ') (x : κ' × K → ℝ) : κ × K → ℝ := fun k => x (g k.1, k.2)

/-- Permuting the particles of a system. -/
def permute {ι β K K' : Type} (σ : Equiv.Perm ι) (s : (ι × K → ℝ) × (ι × K → ℝ) × (β × K' → ℝ)) :
    (ι × K → ℝ) × (ι × K → ℝ) × (β × K' → ℝ) :=
  (rows σ s.1, rows σ s.2.1, s.2.2)

/-- Replacing the batch by the rows `g` of it. -/
def select {ι β β' K K' : Type} (g : β' → β) (s : (ι × K → ℝ) × (ι × K → ℝ) × (β × K' → ℝ)) :
    (ι × K → ℝ) × (ι × K → ℝ) × (β' × K' → ℝ) :=
  (s.1, s.2.1, rows g s.2.2)

end Verif.Evolution
