import Verif.Assembly.Model

/-!
# Specification for assembly

Everything here is written without reference to the assembling code.
-/

namespace Verif.Assembly
open Verif

variable {α : Type _}

/-- A dictionary as the library produces it: sorted keys, tensors whose data match their shape, and
rank at least one. -/
def GoodDict (d : TDict α) : Prop :=
  SDict.Sorted d ∧ ∀ p ∈ d, p.2.WF ∧ p.2.shape ≠ []

/-- A dictionary of such dictionaries. -/
def GoodDicts (d : TDicts α) : Prop :=
  SDict.Sorted d ∧ ∀ p ∈ d, GoodDict p.2

instance (d : TDict α) : Decidable (GoodDict d) := by unfold GoodDict; infer_instance
instance (d : TDicts α) : Decidable (GoodDicts d) := by unfold GoodDicts; infer_instance

/-- All elements of a dictionary of dictionaries in order: blocks in order, keys in order, row-major
elements in order. -/
def elements (d : TDicts α) : List α :=
  d.flatMap (fun block => block.2.flatMap (fun entry => entry.2.data))

/-- The blocks that have at least one entry. -/
def dropEmptyBlocks (d : TDicts α) : TDicts α := d.filter (fun block => !block.2.isEmpty)

/-- The section contains at least one tensor. -/
def HasTensor (d : TDicts α) : Prop := ∃ block ∈ d, block.2 ≠ []

/-- Shapes of all tensors in a dictionary of dictionaries. -/
def shapesOf (d : TDicts α) : Plans :=
  d.map (fun block => (block.1, block.2.map (fun entry => (entry.1, entry.2.shape))))

/-- Number of vector entries a plan describes. -/
def planLength (p : Plans) : Nat :=
  (p.map (fun block => (block.2.map (fun entry => vol entry.2)).sum)).sum

/-- A plan as produced from a dictionary of tensors of rank at least one. -/
def GoodPlans (p : Plans) : Prop :=
  SDict.Sorted p ∧ ∀ block ∈ p, SDict.Sorted block.2 ∧ ∀ entry ∈ block.2, entry.2 ≠ []

instance (p : Plans) : Decidable (GoodPlans p) := by unfold GoodPlans; infer_instance

/-- Well-formed plans for all three sections. -/
def GoodAllPlans (p : AllPlans) : Prop :=
  GoodPlans p.state ∧ GoodPlans p.costate ∧ GoodPlans p.data

/-- Number of vector entries all three plans describe. -/
def totalLength (p : AllPlans) : Nat :=
  planLength p.state + planLength p.costate + planLength p.data

/-- The dictionaries at time index `i` of dictionaries with a leading time dimension. -/
def atTime (i : Nat) (d : TDicts α) : TDicts α :=
  SDict.mapVals (fun block => SDict.mapVals (fun t => t.index0 i) block) d

/-- Every tensor of the dictionaries has a leading dimension of size `n`. -/
def LeadingDim (n : Nat) (d : TDicts α) : Prop :=
  ∀ block ∈ d, ∀ entry ∈ block.2, ∃ s, entry.2.shape = n :: s ∧ entry.2.WF

end Verif.Assembly
