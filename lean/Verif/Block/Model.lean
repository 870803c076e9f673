import Verif.Assembly.Model
import Verif.Concat.Model
import Verif.Enlarge.Model
import Verif.Base.PDict

/-!
# Shooting blocks

Models `ShootingBlockBase` of `/repo/neuro_shooting/shooting_blocks.py` (lines 85-281, 367-387, 454-737) on top of the models of
assembling, dictionaries, concatenating and enlarging.

* `T` are times, `α` numbers, `Θ` the trainable content of the integrand (its own and its particle-free parameters), `R` random
  numbers for new parameters.
* The integrator applied to the integrand is a function `solve` (the data concatenation dimension, the assembly plans and the trainable
  content are the only things of the integrand that the block changes; the cache of the integrand is cleared before each
  integration, line 691, see `Verif.Integrand`).
* Printed messages, devices and number types are not modelled.
-/

namespace Verif.Block
open Verif

abbrev TDict (α : Type) := SDict String (Tensor α)
abbrev TDicts (α : Type) := SDict String (TDict α)
abbrev Enl (α : Type) := Option (Dicts.DDict (Enlarge.Entry α))

/-- Which object a registered parameter name refers to: an own state or costate, an enlargement parameter for key `k` of
pass-through block `b`, a parameter of the integrand, or a particle-free parameter. -/
inductive Ref where
  | state (k : String)
  | costate (k : String)
  | enlState (b k : String)
  | enlCostate (b k : String)
  | integrand (n : String)
  | free (i : Nat) (obj k : String)
  deriving DecidableEq

/-- What does not change during the life of a block: the integrand's class and the constructor arguments. -/
structure Cfg (α T Θ R : Type) where
  /-- `_block_name` -/
  name : String
  /-- `shooting_integrand.concatenate_parameters` -/
  concatenate : Bool
  /-- `shooting_integrand.concatenation_dim` (1 or 2 in all classes) -/
  concatDim : Nat
  /-- `shooting_integrand.enlargement_dimensions` -/
  enlargementDims : Option (List Nat)
  /-- `enlarge_pass_through_states_and_costates` -/
  enlarge : Bool
  /-- `keep_initial_state_parameters_at_zero` -/
  keepZero : Bool
  /-- `shooting_integrand.get_initial_data_dict_from_data_tensor` -/
  initialData : Tensor α → Py (TDict α)
  /-- the key that `shooting_integrand.disassemble` returns (`'q1'` in all classes) -/
  outKey : String
  /-- `integrator.integrate`: one row per time, or Python's `None` -/
  solve : Θ → Nat → Assembly.AllPlans → List α → List T → Py (Option (List (List α)))
  /-- new enlargement parameters: block, key, number -/
  mkState : R → String → String → Nat → List α
  mkCostate : R → String → String → Nat → List α

/-- What changes. -/
structure St (α T Θ : Type) where
  /-- `_forward_not_yet_executed` -/
  notYet : Bool
  /-- `integration_time` -/
  time : Option (List T)
  /-- `integration_time_vector` -/
  timeVector : Option (List T)
  /-- `_state_parameter_dict`, `_costate_parameter_dict` -/
  state : Option (TDict α)
  costate : Option (TDict α)
  /-- `_pass_through_state_dict_of_dicts_enlargement_parameters` and the same for the costate -/
  enlState : Enl α
  enlCostate : Enl α
  /-- the registered parameters in the order of registration -/
  reg : PDict String Ref
  /-- `shooting_integrand.data_concatenation_dim` -/
  dataDim : Nat
  theta : Θ

variable {α T Θ R : Type}

/-! ## Construction -/

/-- `nn.Module.register_parameter`: names must be non-empty and without a dot (`KeyError`); an existing parameter of this name is
replaced.  (Names of other attributes are also rejected by torch; not modelled.) -/
def register (reg : PDict String Ref) (name : String) (r : Ref) : Py (PDict String Ref) :=
  if name = "" ∨ '.' ∈ name.toList then .error .keyError else .ok (reg.set name r)

/-- Several registrations one after the other; what was registered before an exception stays. -/
def registerAll (reg : PDict String Ref) : List (String × Ref) → PDict String Ref × Py Unit
  | [] => (reg, .ok ())
  | p :: l =>
    match register reg p.1 p.2 with
    | .error e => (reg, .error e)
    | .ok reg => registerAll reg l

/-- `create_initial_costate_parameters` of the integrand, `shooting_integrands.py:438-459`. -/
def costateOf (like : Tensor α → Tensor α) (state : Option (TDict α)) : Option (TDict α) :=
  state.map fun d => d.foldl (fun (acc : TDict α) p => acc.set ("p_" ++ p.1) (like p.2)) []

/-- `pn.replace('.','__')`, line 505. -/
def undot (n : String) : String :=
  String.ofList (n.toList.flatMap fun c => if c = '.' then ['_', '_'] else [c])

/-- The arguments of the constructor that matter only there. -/
structure Args (α T : Type) where
  /-- an integrand object is given -/
  integrand : Bool
  /-- an integrand name is given -/
  integrandName : Bool
  maxTime : Option T
  freeRnn : Bool
  freeTime : Bool
  freeSteps : Nat
  /-- what `create_initial_state_parameters_if_needed` returns -/
  state : Option (TDict α)
  /-- `create_parameters_like` of the costate initializer -/
  like : Tensor α → Tensor α
  /-- names of the default parameter objects and their parameters -/
  objects : List (String × List String)
  /-- names of the parameters of the integrand -/
  integrandNames : List String

/-- `str(i)` for a natural number. -/
def showNat (i : Nat) : String := toString i

/-- Names and references of particle-free parameters, lines 229-232 and 509-523. -/
def freeNames (steps : Nat) (objects : List (String × List String)) : List (String × Ref) :=
  (List.range steps).flatMap fun i => objects.flatMap fun o => o.2.map fun k =>
    ("pf_timestep" ++ showNat i ++ "_" ++ o.1 ++ "_" ++ k, .free i o.1 k)

/-- `register_state_and_costate_parameters`, lines 533-559.  With `keepZero`, line 544 calls `zero_()` on an `nn.Parameter`
(all initializers return parameters that require gradients): torch raises a `RuntimeError`. -/
def registerOwn (keepZero : Bool) (reg : PDict String Ref) (state costate : Option (TDict α)) : Py (PDict String Ref) := do
  let reg ← (if keepZero then
      match state with
      | some (_ :: _) => .error .runtimeError
      | _ => .ok reg
    else (((state.getD []).keys.map fun k => (k, Ref.state k)).foldlM (fun reg p => register reg p.1 p.2) reg : Py _))
  ((costate.getD []).keys.map fun k => (k, Ref.costate k)).foldlM (fun reg p => register reg p.1 p.2) reg

/-- `__init__`, lines 91-246 (the integrator is part of `Cfg`). -/
def construct [OfNat T 0] [OfNat T 1] (cfg : Cfg α T Θ R) (a : Args α T) (theta : Θ) : Py (St α T Θ) := do
  if a.integrand = false ∧ a.integrandName = false then .error .valueError
  else if a.integrand = true ∧ a.integrandName = true then .error .valueError
  else if a.integrand = false then .error .valueError
  else if a.freeTime = true ∧ a.freeRnn = true then .error .valueError
  else
    let costate := costateOf a.like a.state
    let reg ← (if a.freeRnn || a.freeTime then
        (freeNames (if a.freeRnn then 1 else a.freeSteps) a.objects).foldlM (fun reg p => register reg p.1 p.2) ([] : PDict String Ref)
      else registerOwn cfg.keepZero [] a.state costate)
    let reg ← (a.integrandNames.map fun n => (undot n, Ref.integrand n)).foldlM (fun reg p => register reg p.1 p.2) reg
    .ok ⟨true, some [0, a.maxTime.getD 1], none, a.state, costate, none, none, reg, cfg.concatDim, theta⟩

/-! ## Integration time -/

/-- `set_integration_time`, lines 261-263. -/
def setTime [OfNat T 0] (t : T) (s : St α T Θ) : St α T Θ := { s with time := some [0, t], timeVector := none }

/-- `set_integration_time_vector`, lines 265-269. -/
def setTimeVector (v : List T) (s : St α T Θ) : St α T Θ := { s with time := none, timeVector := some v }

/-- `_apply` and `to`, lines 271-281 (moving to another device or number type): they read `integration_time`, which is `None`
after a time vector was set (`AttributeError`). -/
def move (s : St α T Θ) : Py Unit := match s.time with | none => .error .attributeError | some _ => .ok ()

/-! ## Enlargement parameters -/

/-- The names registered for enlargement parameters, lines 568-576 and 582-586: no trace of the block. -/
def enlNames (ref : String → String → Ref) (e : Enl α) : List (String × Ref) :=
  (e.getD []).flatMap fun b => b.2.filterMap fun p => p.2.map fun _ => ("pt_enlarge_" ++ p.1, ref b.1 p.1)

/-- `register_pass_through_state_and_costate_enlargement_parameters`, lines 561-587.  Line 575 calls `_zero()`, which tensors do
not have: `AttributeError` at the first enlargement parameter of a state. -/
def registerEnl (keepZero : Bool) (es ec : Enl α) (reg : PDict String Ref) : PDict String Ref × Py Unit :=
  if keepZero = true ∧ enlNames .enlState es ≠ [] then (reg, .error .attributeError)
  else registerAll reg (enlNames .enlState es ++ enlNames .enlCostate ec)

/-- The condition of line 594: Python's `is not None` for the state, truth value for the costate. -/
def enlExists (s : St α T Θ) : Bool :=
  s.enlState.isSome || (match s.enlCostate with | some (_ :: _) => true | _ => false)

/-- `_get_or_create_and_register_pass_through_enlargement_parameters`, lines 589-617, and the assignment of lines 648-650. -/
def getOrCreate (cfg : Cfg α T Θ R) (r : R) (ps pc : TDicts α) (s : St α T Θ) : St α T Θ × Py Unit :=
  if s.notYet then
    if enlExists s then (s, .error .valueError)
    else
      match (do
          let es ← Enlarge.create (cfg.mkState r) ps s.state cfg.enlargementDims
          let ec ← Enlarge.create (cfg.mkCostate r) pc s.costate cfg.enlargementDims
          .ok (es, ec) : Py (Enl α × Enl α)) with
      | .error e => (s, .error e)
      | .ok (es, ec) =>
        match registerEnl cfg.keepZero es ec s.reg with
        | (reg, .error e) => ({ s with reg := reg }, .error e)
        | (reg, .ok _) => ({ s with reg := reg, enlState := es, enlCostate := ec }, .ok ())
  else (s, .ok ())

/-! ## The forward pass -/

/-- Lines 642-666: the pass-through dictionaries that are used. -/
def passThrough (cfg : Cfg α T Θ R) (r : R) (ps pc : Option (TDicts α)) (s : St α T Θ) :
    St α T Θ × Py (Option (TDicts α) × Option (TDicts α)) :=
  match ps, pc with
  | some ps, some pc =>
    if cfg.enlarge then
      match getOrCreate cfg r ps pc s with
      | (s, .error e) => (s, .error e)
      | (s, .ok _) => (s, do
          let ps ← Enlarge.enlargeDicts ps s.enlState
          let pc ← Enlarge.enlargeDicts pc s.enlCostate
          .ok (some ps, some pc))
    else (s, .ok (some ps, some pc))
  | _, _ => (s, .ok (none, none))

/-- Lines 669-680: the data used, and whether zeros are added for the own state. -/
def chooseData (cfg : Cfg α T Θ R) (x : Option (Tensor α)) (data : Option (TDicts α)) : Py (TDicts α × Bool) :=
  match data, x with
  | some _, some _ => .error .valueError
  | some d, none => .ok (d, true)
  | none, some x => do
    let d ← cfg.initialData x
    .ok ([(cfg.name, d)], false)
  | none, none => .error .valueError

/-- Lines 474-491: the data with zeros for the own state; the data concatenation dimension is changed before a failure of the later
steps. -/
def padData [Zero α] (cfg : Cfg α T Θ R) (data : TDicts α) (pad : Bool) (s : St α T Θ) : St α T Θ × Py (TDicts α) :=
  match pad, s.state with
  | true, some st =>
    match Dicts.dataConcatDim (some st) data cfg.concatDim with
    | .error e => (s, .error e)
    | .ok d =>
      ({ s with dataDim := d.getD cfg.concatDim }, do
        let z ← Dicts.zeroDataDict st data cfg.concatDim (d.getD cfg.concatDim)
        Dicts.merge (some z) (some data) cfg.name)
  | _, _ => (s, .ok data)

/-- `_get_initial_conditions_from_data_dict_of_dicts`, lines 454-497. -/
def initial [Zero α] (cfg : Cfg α T Θ R) (data : TDicts α) (ps pc : Option (TDicts α)) (pad : Bool) (s : St α T Θ) :
    St α T Θ × Py (List α × Assembly.AllPlans) :=
  match Dicts.merge s.state ps cfg.name, Dicts.merge s.costate pc cfg.name with
  | .error e, _ => (s, .error e)
  | .ok _, .error e => (s, .error e)
  | .ok st, .ok cs =>
    match padData cfg data pad s with
    | (s, .error e) => (s, .error e)
    | (s, .ok d) => (s, Assembly.assembleTensor st cs d)

/-- Lines 694-703: integrate with the time vector if there is one, otherwise with the integration time and keep only the last
row. -/
def integrate (cfg : Cfg α T Θ R) (x0 : List α) (plans : Assembly.AllPlans) (s : St α T Θ) :
    Py (TDicts α × TDicts α × TDicts α) :=
  match s.timeVector with
  | some v => do
    match ← cfg.solve s.theta s.dataDim plans x0 v with
    | none => .error .typeError
    | some rows => Assembly.disassembleTensor (.stack x0.length rows) (some plans) 1
  | none =>
    match s.time with
    | none => .error .attributeError
    | some t => do
      match ← cfg.solve s.theta s.dataDim plans x0 t with
      | none => .error .typeError
      | some rows =>
        match rows.getLast? with
        | none => .error .indexError
        | some row => Assembly.disassembleTensor (.vec row) (some plans) 0

/-- The first returned value: a tensor, a dictionary or a dictionary of dictionaries. -/
inductive Result (α : Type) where
  | tensor (t : Tensor α)
  | dict (d : TDict α)
  | dicts (d : TDicts α)

/-- What a block returns. -/
structure Out (α : Type) where
  result : Result α
  state : TDicts α
  costate : TDicts α
  data : TDicts α

/-- Lines 716-724: the result when parameters are concatenated. -/
def concatResult (dim : Nat) : Dicts.Extracted (Tensor α) → Py (Result α)
  | .value t => .ok (.tensor t)
  | .blocks d => do
    match ← Concat.concatDicts d dim with
    | [(_, t)] => .ok (.tensor t)
    | c => .ok (.dict c)

def plainResult : Dicts.Extracted (Tensor α) → Result α
  | .value t => .tensor t
  | .blocks d => .dicts d

/-- Lines 703-729. -/
def finish (cfg : Cfg α T Θ R) (dataDim : Nat) (o : TDicts α × TDicts α × TDicts α) : Py (Out α) := do
  let res ← Dicts.extractKey o.2.2 cfg.outKey
  if cfg.concatenate then
    let st ← Concat.concatNamed o.1 cfg.concatDim cfg.name
    let cs ← Concat.concatNamed o.2.1 cfg.concatDim cfg.name
    let d ← Concat.concatNamed o.2.2 dataDim cfg.name
    let res ← concatResult dataDim res
    .ok ⟨res, st, cs, d⟩
  else .ok ⟨plainResult res, o.1, o.2.1, o.2.2⟩

/-- The inputs of a forward pass. -/
structure Inp (α : Type) where
  x : Option (Tensor α)
  state : Option (TDicts α)
  costate : Option (TDicts α)
  data : Option (TDicts α)

/-- Lines 633-641: the checks that come first. -/
def checkInputs (i : Inp α) : Py Unit :=
  if i.x.isNone = true ∧ i.state.isNone = true ∧ i.costate.isNone = true then .error .valueError
  else if i.state.isSome ≠ i.costate.isSome then .error .valueError
  else .ok ()

/-- `forward`, lines 631-737: the new state of the block, and the outputs or an exception. -/
def forward [Zero α] (cfg : Cfg α T Θ R) (r : R) (i : Inp α) (s : St α T Θ) : St α T Θ × Py (Out α) :=
  match checkInputs i with
  | .error e => (s, .error e)
  | .ok _ =>
    match passThrough cfg r i.state i.costate s with
    | (s, .error e) => (s, .error e)
    | (s, .ok (ps, pc)) =>
      match chooseData cfg i.x i.data with
      | .error e => (s, .error e)
      | .ok (data, pad) =>
        match initial cfg data ps pc pad s with
        | (s, .error e) => (s, .error e)
        | (s, .ok (x0, plans)) =>
          match (do finish cfg s.dataDim (← integrate cfg x0 plans s) : Py (Out α)) with
          | .error e => (s, .error e)
          | .ok o => ({ s with notYet := false }, .ok o)

/-! ## Parameters and training -/

/-- `parameters`, lines 249-253: the objects, in the order of registration. -/
def parameters (s : St α T Θ) : Py (List Ref) :=
  if s.notYet then .error .valueError else .ok (s.reg.map Prod.snd)

/-- A change of the values of a parameter by an optimiser keeps the number of values. -/
def newValues (f : Ref → List α → List α) (reg : PDict String Ref) (r : Ref) (l : List α) : List α :=
  if r ∈ reg.map Prod.snd ∧ (f r l).length = l.length then f r l else l

/-- An optimiser step: the registered parameters get new values. -/
def train (f : Ref → List α → List α) (g : Θ → Θ) (s : St α T Θ) : St α T Θ :=
  let own (ref : String → Ref) (d : TDict α) : TDict α := d.map fun p => (p.1, { p.2 with data := newValues f s.reg (ref p.1) p.2.data })
  let enl (ref : String → String → Ref) (d : Dicts.DDict (Enlarge.Entry α)) : Dicts.DDict (Enlarge.Entry α) :=
    d.map fun b => (b.1, b.2.map fun p => (p.1, p.2.map fun e => (newValues f s.reg (ref b.1 p.1) e.1, e.2)))
  { s with state := s.state.map (own .state), costate := s.costate.map (own .costate),
           enlState := s.enlState.map (enl .enlState), enlCostate := s.enlCostate.map (enl .enlCostate), theta := g s.theta }

/-! ## Histories -/

/-- What can be done with a block. -/
inductive Op (α T Θ R : Type) where
  | forward (r : R) (i : Inp α)
  | setTime (t : T)
  | setTimeVector (v : List T)
  | move
  | train (f : Ref → List α → List α) (g : Θ → Θ)

def step [Zero α] [OfNat T 0] (cfg : Cfg α T Θ R) (s : St α T Θ) : Op α T Θ R → St α T Θ
  | .forward r i => (forward cfg r i s).1
  | .setTime t => setTime t s
  | .setTimeVector v => setTimeVector v s
  | .move => s
  | .train f g => train f g s

/-- The state after a history. -/
def after [Zero α] [OfNat T 0] (cfg : Cfg α T Θ R) (s : St α T Θ) (ops : List (Op α T Θ R)) : St α T Θ := ops.foldl (step cfg) s

end Verif.Block
