import Mathlib.Data.Real.Basic

/-! # What the notebooks should show -/

namespace Verif.Notebooks

/-- A prediction is right: positive outputs mean class one, the others class zero. -/
def Right (p : ℝ × ℕ) : Prop := (0 < p.1 ∧ p.2 = 1) ∨ (p.1 ≤ 0 ∧ p.2 = 0)

/-- A result of sorting: the indices of all times, each once, in an order in which the times do not decrease. -/
def SortsTimes {K : Type} [LinearOrder K] (idx : List ℕ) (t : List K) : Prop :=
  idx.Perm (List.range t.length) ∧ idx.Pairwise fun i j => ∀ a b, t[i]? = some a → t[j]? = some b → a ≤ b

/-- The nuclear norm, given the singular values. -/
def nuclear {K : Type} [Add K] [Zero K] (s : List K) : K := s.sum

end Verif.Notebooks
