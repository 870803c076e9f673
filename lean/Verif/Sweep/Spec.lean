import Verif.Base.PDict
import Mathlib.Data.List.Lex

/-!
# Specification of a parameter sweep: all combinations, in lexicographic order
-/

namespace Verif.Sweep
open Verif

variable {V : Type}

/-- `ix` picks one value of every option. -/
def Valid (pars : PDict String (List V)) (ix : List Nat) : Prop :=
  List.Forall₂ (fun (p : String × List V) (i : Nat) => i < p.2.length) pars ix

/-- `d` assigns to every option, in the order of the options, the value picked by `ix`. -/
inductive Picks : PDict String (List V) → List Nat → PDict String V → Prop
  | nil : Picks [] [] []
  | cons {k : String} {vs : List V} {v : V} {i : Nat} {pars : PDict String (List V)} {ix : List Nat} {d : PDict String V} :
      vs[i]? = some v → Picks pars ix d → Picks ((k, vs) :: pars) (i :: ix) ((k, v) :: d)

/-- `ds` is the list of all combinations, each once, in lexicographic order (first option slowest). -/
def AllCombinations (pars : PDict String (List V)) (ds : List (PDict String V)) : Prop :=
  ∃ ixs : List (List Nat), (∀ ix, ix ∈ ixs ↔ Valid pars ix) ∧ ixs.Pairwise (List.Lex (· < ·)) ∧
    List.Forall₂ (Picks pars) ixs ds

end Verif.Sweep
