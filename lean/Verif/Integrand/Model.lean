import Verif.Base.Py
import Verif.Base.PDict
import Verif.TimeParams.Model
import Mathlib.Algebra.Field.Defs

/-!
# The integrand as a state machine

Models the parts of `ShootingIntegrandBase` (`/repo/neuro_shooting/shooting_integrands.py`) that
depend on the history: cached RNN parameters, externally managed parameters, the norm penalty, the hooks.
What one evaluation computes from its input is left abstract (`Rule`); the formulas are in
`Verif.Shooting`, `Verif.Energy` and `Verif.Models`.
-/

namespace Verif.Integrand
open Verif Verif.TimeParams

/-- The computations of a model class.  `X` are the inputs (state, costate and data dictionaries), `Par` parameter
objects, `Dot` derivatives, `N` numbers, `R` the random numbers drawn for fresh parameter objects. -/
structure Rule (X Par Dot N R : Type) where
  /-- number of blocks in the state, costate and data dictionaries -/
  nState : X → Nat
  nCostate : X → Nat
  nData : X → Nat
  /-- `compute_parameters` or `optional_compute_parameters_analytic` -/
  compute : R → X → Py Par
  /-- `compute_kinetic_energy` -/
  kinetic : Par → N
  /-- `rhs_advect_state_dict_of_dicts`, `rhs_advect_data_dict_of_dicts` -/
  stateRhs : Par → X → Py Dot
  dataRhs : Par → X → Py Dot
  /-- derivative of the costate: `optional_rhs_advect_costate_dict_of_dicts_analytic` or the gradient of the reduced Lagrangian -/
  costateRhs : Par → X → Py Dot

/-- The attributes that change (`shooting_integrands.py:60-102`).  `func` is the external parameter function with its cache
(`Verif.TimeParams`), `hooks` the ordered dictionary of hooks, `nextId` the counter `RemovableHandle.next_id` of torch, `handles` the handles
returned to the user so far. -/
structure St (T Par N H D : Type) where
  useRnn : Bool
  external : Bool
  func : Option (Table T Par × Cache T)
  cache : Option Par
  penalty : Option N
  hooks : PDict Nat H
  nextId : Nat
  handles : List Nat
  custom : Option D

/-- What a hook is called with (`shooting_integrands.py:760-762`). -/
structure Args (T X Par Dot D : Type) where
  t : T
  x : X
  dotState : Dot
  dotCostate : Dot
  dotData : Dot
  params : Par
  custom : Option D

/-- What an evaluation returns, together with the parameters it used for state and data and for the costate. -/
structure Out (Par Dot : Type) where
  dotState : Dot
  dotCostate : Dot
  dotData : Dot
  params : Par
  costateParams : Par

variable {T X Par Dot N R H D : Type} [LinearOrder T] [OfNat T 0]

/-- The constructor (lines 20-97). -/
def fresh (useRnn : Bool) (nextId : Nat) : St T Par N H D :=
  ⟨useRnn, false, none, none, none, [], nextId, [], none⟩

/-- `reset`, lines 99-102. -/
def reset (s : St T Par N H D) : St T Par N H D :=
  { s with penalty := none, cache := if s.external then s.cache else none }

/-- `set_externally_managed_rnn_parameter_func`, lines 104-107. -/
def setExternal (f : Table T Par × Cache T) (s : St T Par N H D) : St T Par N H D :=
  { s with func := some f, useRnn := true, external := true }

/-- `register_lagrangian_gradient_hook`, lines 147-168: a handle with a new id, and the hook stored under it. -/
def register (h : H) (s : St T Par N H D) : St T Par N H D :=
  { s with hooks := s.hooks.set s.nextId h, nextId := s.nextId + 1, handles := s.handles ++ [s.nextId] }

/-- `RemovableHandle.remove` of torch for the handle returned by the `k`-th registration: delete the entry if it is there. -/
def remove (k : Nat) (s : St T Par N H D) : St T Par N H D :=
  match s.handles[k]? with
  | none => s
  | some i => { s with hooks := s.hooks.filter fun p => p.1 ≠ i }

/-- A state and a result: what was changed before an exception stays changed. -/
abbrev Res (T Par N H D α : Type) := St T Par N H D × Py α

/-- The parameters of an evaluation (lines 638-656 and 693-712): external ones, the cached ones, or fresh ones. -/
def chooseParams (rule : Rule X Par Dot N R) (t : T) (x : X) (r : R) (s : St T Par N H D) : Res T Par N H D Par :=
  if s.useRnn then
    if s.external then
      match s.func with
      | none => (s, .error .valueError)
      | some (tb, c) =>
        match getAt tb c t with
        | .error e => (s, .error e)
        | .ok (p, c') => ({ s with func := some (tb, c') }, .ok p)
    else
      match s.cache with
      | some p => (s, .ok p)
      | none =>
        match rule.compute r x with
        | .error e => (s, .error e)
        | .ok p => ({ s with cache := some p }, .ok p)
  else (s, rule.compute r x)

/-- The parameters inside `compute_reduced_lagrangian` (lines 362-384).  Line 368 calls the external parameter function
object, which has no `__call__` method (`shooting_blocks.py:11-84`): `TypeError`. -/
def lagrangianParams (rule : Rule X Par Dot N R) (x : X) (r : R) (s : St T Par N H D) : Res T Par N H D Par :=
  if s.useRnn then
    if s.external then
      match s.func with
      | none => (s, .error .valueError)
      | some _ => (s, .error .typeError)
    else
      match s.cache with
      | some p => (s, .ok p)
      | none =>
        match rule.compute r x with
        | .error e => (s, .error e)
        | .ok p => ({ s with cache := some p }, .ok p)
  else (s, rule.compute r x)

/-- Lines 658-675 and 714-727: at time 0 the norm penalty is the kinetic energy of the parameters, or the mean of the kinetic
energies of the external parameters. -/
def updatePenalty [Field N] (rule : Rule X Par Dot N R) (t : T) (p : Par) (s : St T Par N H D) : Res T Par N H D Unit :=
  if t = 0 then
    if s.external then
      match s.func with
      | none => (s, .error .valueError)
      | some (tb, _) =>
        ({ s with penalty := some ((tb.params.map rule.kinetic).sum / (tb.params.length : N)) }, .ok ())
    else ({ s with penalty := some (rule.kinetic p) }, .ok ())
  else (s, .ok ())

/-- `compute_gradients_analytic`, lines 624-687. -/
def gradientsAnalytic [Field N] (rule : Rule X Par Dot N R) (t : T) (x : X) (r : R) (s : St T Par N H D) :
    Res T Par N H D (Out Par Dot) :=
  if rule.nState x ≠ 1 ∨ rule.nCostate x ≠ 1 then (s, .error .valueError)
  else
    match chooseParams rule t x r s with
    | (s, .error e) => (s, .error e)
    | (s, .ok p) =>
      match updatePenalty rule t p s with
      | (s, .error e) => (s, .error e)
      | (s, .ok _) =>
        (s, do
          let ds ← rule.stateRhs p x
          let dd ← rule.dataRhs p x
          let dc ← rule.costateRhs p x
          .ok ⟨ds, dc, dd, p, p⟩)

/-- The end of `compute_gradients_autodiff`, lines 734-737: the costate by differentiating the reduced Lagrangian. -/
def costateAutodiff (rule : Rule X Par Dot N R) (x : X) (r : R) (p : Par) (ds dd : Dot) (s : St T Par N H D) :
    Res T Par N H D (Out Par Dot) :=
  match lagrangianParams rule x r s with
  | (s, .error e) => (s, .error e)
  | (s, .ok pc) => (s, do
      let dc ← rule.costateRhs pc x
      .ok ⟨ds, dc, dd, p, pc⟩)

/-- `compute_gradients_autodiff`, lines 689-739; the parameters are computed twice, with random numbers `r.1` and `r.2`. -/
def gradientsAutodiff [Field N] (rule : Rule X Par Dot N R) (t : T) (x : X) (r : R × R) (s : St T Par N H D) :
    Res T Par N H D (Out Par Dot) :=
  match chooseParams rule t x r.1 s with
  | (s, .error e) => (s, .error e)
  | (s, .ok p) =>
    match updatePenalty rule t p s with
    | (s, .error e) => (s, .error e)
    | (s, .ok _) =>
      match rule.stateRhs p x, rule.dataRhs p x with
      | .ok ds, .ok dd => costateAutodiff rule x r.2 p ds dd s
      | .error e, _ => (s, .error e)
      | .ok _, .error e => (s, .error e)

/-- The loop over the hooks, lines 759-762: the calls made, and an exception if a hook raises one (the later hooks are then not
called).  `hookFails` says what a hook does; hooks do not change the integrand. -/
def runHooks (hookFails : H → Args T X Par Dot D → Option Err) (a : Args T X Par Dot D) :
    List H → List (H × Args T X Par Dot D) × Py Unit
  | [] => ([], .ok ())
  | h :: hs =>
    match hookFails h a with
    | some e => ([(h, a)], .error e)
    | none => let (cs, res) := runHooks hookFails a hs; ((h, a) :: cs, res)

/-- `compute_gradients`, lines 741-764 (the printed hint about analytic equations is not modelled): the new state, the hook calls and the result. -/
def gradients [Field N] (rule : Rule X Par Dot N R) (hookFails : H → Args T X Par Dot D → Option Err) (analytic : Bool)
    (t : T) (x : X) (r : R × R) (s : St T Par N H D) :
    St T Par N H D × List (H × Args T X Par Dot D) × Py (Out Par Dot) :=
  match if analytic then gradientsAnalytic rule t x r.1 s else gradientsAutodiff rule t x r s with
  | (s, .error e) => (s, [], .error e)
  | (s, .ok o) =>
    match runHooks hookFails ⟨t, x, o.dotState, o.dotCostate, o.dotData, o.params, s.custom⟩ (s.hooks.map Prod.snd) with
    | (cs, .error e) => (s, cs, .error e)
    | (cs, .ok _) => (s, cs, .ok o)

/-- `transpose_state_dict_of_dicts`, lines 767-772, on a dictionary with `n` blocks: it reads from the
empty result dictionary, a `KeyError` unless there is no block. -/
def transposeDicts (n : Nat) : Py Unit := if n = 0 then .ok () else .error .keyError

/-- `forward`, lines 781-816, after disassembling and before assembling.  The option
`transpose_state_when_forward` is `transpose`. -/
def forward [Field N] (rule : Rule X Par Dot N R) (hookFails : H → Args T X Par Dot D → Option Err) (analytic transpose : Bool)
    (t : T) (x : X) (r : R × R) (s : St T Par N H D) :
    St T Par N H D × List (H × Args T X Par Dot D) × Py (Out Par Dot) :=
  if transpose then
    match (do transposeDicts (rule.nState x); transposeDicts (rule.nCostate x); transposeDicts (rule.nData x) : Py Unit) with
    | .error e => (s, [], .error e)
    | .ok _ => gradients rule hookFails analytic t x r s
  else gradients rule hookFails analytic t x r s

/-- What a user or an integrator can do with an integrand. -/
inductive Op (T X R Par H D : Type) where
  | eval (t : T) (x : X) (r : R × R)
  | reset
  | setExternal (f : Table T Par × Cache T)
  | register (h : H)
  | remove (k : Nat)
  | setCustom (d : D)
  /-- some other module registers a hook (the id counter of torch is global) -/
  | otherId

/-- Configuration: the class, the behaviour of the hooks and the constructor options. -/
structure Cfg (T X Par Dot N R H D : Type) where
  rule : Rule X Par Dot N R
  hookFails : H → Args T X Par Dot D → Option Err
  analytic : Bool
  transpose : Bool

/-- What can be seen of an operation: hook calls and result of an evaluation. -/
structure Seen (T X Par Dot H D : Type) where
  calls : List (H × Args T X Par Dot D)
  result : Option (Py (Out Par Dot))

def step [Field N] (cfg : Cfg T X Par Dot N R H D) (s : St T Par N H D) : Op T X R Par H D → St T Par N H D × Seen T X Par Dot H D
  | .eval t x r =>
    let (s', cs, res) := forward cfg.rule cfg.hookFails cfg.analytic cfg.transpose t x r s
    (s', ⟨cs, some res⟩)
  | .reset => (reset s, ⟨[], none⟩)
  | .setExternal f => (setExternal f s, ⟨[], none⟩)
  | .register h => (register h s, ⟨[], none⟩)
  | .remove k => (remove k s, ⟨[], none⟩)
  | .setCustom d => ({ s with custom := some d }, ⟨[], none⟩)
  | .otherId => ({ s with nextId := s.nextId + 1 }, ⟨[], none⟩)

/-- The state after a history. -/
def after [Field N] (cfg : Cfg T X Par Dot N R H D) (s : St T Par N H D) (ops : List (Op T X R Par H D)) : St T Par N H D :=
  ops.foldl (fun s o => (step cfg s o).1) s

end Verif.Integrand
