import Verif.Dicts.Model

/-!
# Specification vocabulary for the dictionary utilities
-/

namespace Verif.Dicts
open Verif

variable {V : Type _}

/-- Outer and inner dictionaries satisfy the representation invariant of `SortedDict`. -/
def SortedDicts (d : DDict V) : Prop := SDict.Sorted d ∧ ∀ b ∈ d, SDict.Sorted b.2

instance (d : DDict V) : Decidable (SortedDicts d) := by unfold SortedDicts; infer_instance

/-- `d[b][m]` -/
def lookup (d : DDict V) (b m : String) : Option V := (SDict.get? d b).bind (fun x => SDict.get? x m)

/-- The (block name, variable name) pairs in iteration order. -/
def slots (d : DDict V) : List (String × String) :=
  d.flatMap (fun b => b.2.keys.map (fun m => (b.1, m)))

/-- The values in iteration order. -/
def flatValues (d : DDict V) : List V := d.flatMap (fun b => b.2.values)

end Verif.Dicts
