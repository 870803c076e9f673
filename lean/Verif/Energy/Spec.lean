import Verif.Energy.Model
import Verif.Dicts.Spec

/-!
# Specification vocabulary
-/

namespace Verif.Energy
open Verif

variable {α : Type} [Field α]

/-- The weight of a parameter: 1 if there is no entry or the entry is `None`. -/
def weightOf (o : Obj α) (k : String) : α := ((SDict.get? o.weights k).join).getD 1

/-- All scalar parameters with their weights. -/
def terms (objs : SDict String (Obj α)) : List (α × α) :=
  objs.flatMap (fun o => o.2.pars.flatMap (fun p => p.2.map (fun x => (weightOf o.2 p.1, x))))

/-- Representation invariant of the (nested) sorted dictionaries. -/
def SortedObjs (objs : SDict String (Obj α)) : Prop :=
  SDict.Sorted objs ∧ ∀ o ∈ objs, SDict.Sorted o.2.pars

/-- The (object, parameter) names in iteration order. -/
def names (objs : SDict String (Obj α)) : List (String × String) :=
  objs.flatMap (fun o => o.2.pars.keys.map (fun k => (o.1, k)))

/-- All parameters multiplied by `c`. -/
def scale (c : α) (objs : SDict String (Obj α)) : SDict String (Obj α) :=
  SDict.mapVals (fun o => { o with pars := SDict.mapVals (fun t => t.map (fun x => c * x)) o.pars }) objs

/-- The objects with the parameter `(o, k)` replaced by `h o k old weight`; names, order and weights are kept. -/
def mapParameters (h : String → String → List α → α → List α) (objs : SDict String (Obj α)) : SDict String (Obj α) :=
  objs.map (fun o => (o.1, { o.2 with pars := o.2.pars.map (fun p => (p.1, h o.1 p.1 p.2 (weightOf o.2 p.1))) }))

end Verif.Energy
