import Verif.Base.Py
import Verif.Base.SDict
import Verif.Dicts.Model
import Mathlib.Algebra.Field.Defs

/-!
# Kinetic energy and parameter updates on dictionaries (`shooting_integrands.py`)

Numbers are elements of a field `α` (exact arithmetic); a tensor is the list of its elements in row-major order.
-/

namespace Verif.Energy
open Verif

variable {α : Type} [Field α]

/-- A parameter object: its parameter dictionary and its dictionary of weights (`overwrite_classes.py:52-56`); the value `none` is Python's `None`. -/
structure Obj (α : Type) where
  pars : SDict String (List α)
  weights : SDict String (Option α)
  deriving DecidableEq

/-- `cpar_penalty` (`shooting_integrands.py:328-336`) -/
def penalty (weights : SDict String (Option α)) (k : String) (cpar : List α) : α :=
  match SDict.get? weights k with
  | none => (cpar.map (fun x => x ^ 2)).sum
  | some none => (cpar.map (fun x => x ^ 2)).sum
  | some (some w) => w * (cpar.map (fun x => x ^ 2)).sum

/-- `compute_kinetic_energy(t, parameter_objects)` (`shooting_integrands.py:303-342`) -/
def kineticEnergy (objs : SDict String (Obj α)) : α :=
  (1 / 2) * objs.foldl (fun e o => o.2.pars.foldl (fun e p => e + penalty o.2.weights p.1 p.2) e) 0

/-- The loop over `zip(current_pars, current_from_pars)` of lines 568-569 and 581-588: the entry of key `k` is replaced by `f k old new`.
Keys are only overwritten, never added, so iterating while assigning is harmless. -/
def zipLoop (f : String → List α → List α → List α) (pars fromPars : SDict String (List α)) : SDict String (List α) :=
  (pars.zip fromPars).foldl (fun d pf => d.set pf.1.1 (f pf.1.1 pf.1.2 pf.2.2)) pars

/-- The outer loop of lines 561-569 and 574-588: the `ValueError` of lines 563 and 576 is built but not raised, so a
missing object is a `KeyError` of the look-up in the next lines. -/
def updateObjects (f : SDict String (Option α) → String → List α → List α → List α)
    (objs : SDict String (Obj α)) (fromDict : Dicts.DDict (List α)) : Py (SDict String (Obj α)) :=
  objs.foldlM (fun (acc : SDict String (Obj α)) o =>
    match SDict.get? fromDict o.1 with
    | none => .error .keyError
    | some fp => .ok (acc.set o.1 { o.2 with pars := zipLoop (f o.2.weights) o.2.pars fp })) objs

/-- `add_multiple_to_parameter_objects(parameter_objects, pd_from, multiplier)` (`shooting_integrands.py:559-569`) -/
def addMultiple (multiplier : α) (objs : SDict String (Obj α)) (pdFrom : Dicts.DDict (List α)) : Py (SDict String (Obj α)) :=
  updateObjects (fun _ _ old new => List.zipWith (fun x y => x + multiplier * y) old new) objs pdFrom

/-- Lines 582-588: what is stored for one key. -/
def divided (weights : SDict String (Option α)) (k : String) (g : List α) : List α :=
  match SDict.get? weights k with
  | none => g
  | some none => g
  | some (some w) => g.map (fun x => x / w)

/-- `divide_and_store_in_parameter_objects(parameter_objects, generic_dict)` (`shooting_integrands.py:572-591`) -/
def divideAndStore (objs : SDict String (Obj α)) (generic : Dicts.DDict (List α)) : Py (SDict String (Obj α)) :=
  updateObjects (fun weights k _ new => divided weights k new) objs generic

/-- The parameter dictionaries of the objects, as the tuple utilities see them. -/
def dicts (objs : SDict String (Obj α)) : Dicts.DDict (Option (List α)) :=
  SDict.mapVals (fun o => SDict.mapVals some o.pars) objs

/-- Lines 878-895 of `compute_parameters_directly`: the gradients come back as a tuple in the order of
`compute_tuple_from_parameter_objects`, are put into a dictionary with prefix `grad_`, and are stored. -/
def storeGradients (objs : SDict String (Obj α)) (gradTuple : List (List α)) : Py (SDict String (Obj α)) := do
  let d ← Dicts.extractParameterObjects gradTuple (dicts objs) "grad_"
  divideAndStore objs d

/-- Lines 932-945, one pass of `compute_parameters_iteratively`. -/
def gradientStep (rate : α) (objs : SDict String (Obj α)) (gradTuple : List (List α)) : Py (SDict String (Obj α)) := do
  let d ← Dicts.extractParameterObjects gradTuple (dicts objs) "grad_"
  addMultiple (-rate) objs d

end Verif.Energy
