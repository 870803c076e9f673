import Verif.Whole.Spec

/-!
# Rows in two blocks

A later block of a network gets the outputs of the block before it and adds its own state.  What it integrates are two blocks; the formulas
of its class see them side by side.
-/

namespace Verif.Later
open Verif Verif.Tensor Verif.Whole

variable {K Ka Kb : Type}

/-- Rows with the coordinates `K` are rows with the coordinates `Ka` and rows with the coordinates `Kb` side by side: under every name the tensor for `K` is the one for `Ka`
followed, in dimension `dim` (the rows are dimension 0), by the one for `Kb`. -/
structure Joined (L : Lay K) (La : Lay Ka) (Lb : Lay Kb) (e : Ka ⊕ Kb ≃ K) (dim : Nat) : Prop where
  pos : 1 ≤ dim
  le : dim ≤ 4
  parts : ∃ l : List (String × List Nat × List Nat), La.names = l.map (fun p => (p.1, p.2.1)) ∧ Lb.names = l.map (fun p => (p.1, p.2.2)) ∧
    L.names = l.map (fun p => (p.1, p.2.1.set (dim - 1) (dimSize p.2.1 (dim - 1) + dimSize p.2.2 (dim - 1)))) ∧
    ∀ p ∈ l, Compat (dim - 1) p.2.1 p.2.2 ∧
      (∀ idx, List.Forall₂ (· < ·) idx p.2.1 → L.coord p.1 idx = (La.coord p.1 idx).map fun k => e (.inl k)) ∧
      (∀ idx, List.Forall₂ (· < ·) idx p.2.2 → L.coord p.1 (idx.set (dim - 1) (dimSize p.2.1 (dim - 1) + idx.getD (dim - 1) 0)) =
        (Lb.coord p.1 idx).map fun k => e (.inr k))

/-- The first coordinates of every row. -/
def left {n : Nat} (e : Ka ⊕ Kb ≃ K) (x : Fin n × K → ℝ) : Fin n × Ka → ℝ := fun k => x (k.1, e (.inl k.2))

/-- The other coordinates of every row. -/
def right {n : Nat} (e : Ka ⊕ Kb ≃ K) (x : Fin n × K → ℝ) : Fin n × Kb → ℝ := fun k => x (k.1, e (.inr k.2))

/-- Rows from the two kinds of coordinates. -/
def beside {n : Nat} (e : Ka ⊕ Kb ≃ K) (xa : Fin n × Ka → ℝ) (xb : Fin n × Kb → ℝ) : Fin n × K → ℝ := fun k =>
  Sum.elim (fun a => xa (k.1, a)) (fun b => xb (k.1, b)) (e.symm k.2)

/-- The data of a block that starts at zero: the names of its state, with the shape of the first data tensor that is passed to it except for the size in the
concatenation dimension, which is that of its state (`state_costate_and_data_dictionary_utils.py:434-449`). -/
structure Fills (Lo : Lay Ka) (Lp' : Lay Kb) (Lo' : Lay K) (dim dataDim : Nat) : Prop where
  pos : 1 ≤ dim ∧ 1 ≤ dataDim
  state : ∀ e ∈ Lo.names, dim ≤ e.2.length
  first : ∃ shape, Lp'.names.head?.map (fun e => e.2) = some shape ∧ dataDim ≤ shape.length ∧
    (∀ e ∈ Lo.names, e.2.length ≤ shape.length ∧ dataDim + e.2.length = dim + shape.length) ∧
    Lo'.names = Lo.names.map fun e => (e.1, shape.set (dataDim - 1) (dimSize e.2 (dim - 1)))

end Verif.Later
