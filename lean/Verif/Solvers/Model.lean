import Verif.Integrator.Model
import Verif.Options.Model

/-!
# The integrators of the experiments

`generic_integrator.py:38-142, 251-263`, the functions `setup_integrator` of the demo programs and the other places where an integrator is created.  `odeint` and `odeint_adjoint` are external; what is
modelled is with which arguments they are called.
-/

namespace Verif.Solvers
open Verif Verif.Cli Verif.Options Verif.Integrator

/-- The arguments `rtol`, `atol`, `method`, `options` of `odeint`/`odeint_adjoint` (`generic_integrator.py:106-114`), and which of the two is called. -/
structure Settings where
  adjoint : Bool
  method : String
  rtol : ℚ
  atol : ℚ
  options : PDict String ℚ
  deriving DecidableEq

/-- A `GenericIntegrator`: the attributes of `Integrator.Config` and lines 80, 87, 88. -/
structure Generic where
  cfg : Config
  adjoint : Bool
  rtol : ℚ
  atol : ℚ
  deriving DecidableEq

/-- `GenericIntegrator(...)`, `generic_integrator.py:39-98`. -/
def generic (library name : Option String) (adjoint : Bool) (options : Option (PDict String ℚ)) (stepSize : Option ℚ) (rtol atol : ℚ) (nr : Option Int) (interval : Option ℚ) : Py Generic :=
  (Integrator.construct library name options stepSize nr interval).map fun c => ⟨c, adjoint, rtol, atol⟩

/-- The default of `step_size`, line 40. -/
def stepDefault : Option ℚ := some (1 / 2)

/-- The defaults of `rtol` and `atol`, line 40. -/
def rtolDefault : ℚ := 1 / 1000
def atolDefault : ℚ := 1 / 100000

/-- The arguments of the call in `_integrate_odeint`, lines 106-114. -/
def Generic.settings (g : Generic) : Settings := ⟨g.adjoint, g.cfg.name, g.rtol, g.atol, g.cfg.options⟩

variable {X : Type}

/-- `_integrate_anode`, lines 116-142.  The package `anode` is not part of the repository (`external/README.txt`); without it the import of lines 16-20 fails silently and `odesolver` is an unknown name
in line 138 (a `NameError`; the error class of the model is its subclass `UnboundLocalError`). -/
def anodeOf (anode : Option (X → X)) : Solver X ℚ := fun x t =>
  match anode with
  | some one => Integrator.anodeSolver one x t
  | none => (Integrator.anodeSolver id x t).bind fun _ => .error .unboundLocal

/-- `_integrate_direct`, lines 251-255, for the external library `lib`. -/
def Generic.direct (g : Generic) (lib : Settings → Solver X ℚ) (anode : Option (X → X)) : Solver X ℚ :=
  if g.cfg.library = "odeint" then lib g.settings else anodeOf anode

/-- `integrate`, lines 257-263. -/
def Generic.integrate (g : Generic) (lib : Settings → Solver X ℚ) (anode : Option (X → X)) (x : X) (t : List ℚ) : Py (Option (List X)) :=
  if g.cfg.nrCheckpoints = none ∧ g.cfg.interval = none then (g.direct lib anode x t).map some
  else Integrator.integrateCheckpointed (g.direct lib anode) g.cfg.nrCheckpoints g.cfg.interval x t

/-! ## The programs -/

/-- `setup_integrator` of `spiral.py:113-124`, `balls.py:144-157`, `rot.py:144-157` and `cc.py:149-162` (the last three without checkpoints). -/
def setupIntegrator (method : String) (adjoint : Bool) (step rtol atol : ℚ) (nr : Option Int) (interval : Option ℚ) : Py Generic :=
  let options : PDict String ℚ := if method ∉ ["dopri5", "adams"] then [("step_size", step)] else []
  generic (some "odeint") (some method) adjoint (some options) stepDefault rtol atol nr interval

/-- `args.name` where a text is expected. -/
def argStr (ns : Namespace) (name : Str) : Py String :=
  match PDict.get? ns name with
  | some (.str s) => .ok (String.ofList s)
  | some _ => .error .typeError
  | none => .error .attributeError

/-- `args.name` where a number is expected. -/
def argFloat (ns : Namespace) (name : Str) : Py ℚ :=
  match PDict.get? ns name with
  | some (.float x) => .ok x
  | some _ => .error .typeError
  | none => .error .attributeError

/-- `args.name` where an integer is expected. -/
def argInt (ns : Namespace) (name : Str) : Py Int :=
  match PDict.get? ns name with
  | some (.int n) => .ok n
  | some _ => .error .typeError
  | none => .error .attributeError

/-- `args.name` for a flag. -/
def argFlag (ns : Namespace) (name : Str) : Py Bool :=
  match PDict.get? ns name with
  | some (.bool b) => .ok b
  | some _ => .error .typeError
  | none => .error .attributeError

/-- `spiral.py:470-486`: the integrator of the spiral experiment; checkpoints only for positive values. -/
def spiralIntegrator (ns : Namespace) : Py Generic := do
  let iv ← argFloat ns "checkpointing_time_interval".toList
  let n ← argInt ns "nr_of_checkpoints".toList
  let m ← argStr ns "method".toList
  let s ← argFloat ns "stepsize".toList
  let adj ← argFlag ns "adjoint".toList
  setupIntegrator m adj s (1 / 10 ^ 8) (1 / 10 ^ 12) (if 0 < n then some n else none) (if 0 < iv then some iv else none)

/-- `balls.py:298-303`, `rot.py:281-286`, `cc.py:363-368`. -/
def videoIntegrator (ns : Namespace) : Py Generic := do
  let m ← argStr ns "method".toList
  let s ← argFloat ns "stepsize".toList
  setupIntegrator m false s (1 / 1000) (1 / 100000) none none

/-- `ShootingBlockBase(…, integrator_name, integrator_options)`, `shooting_blocks.py:92-94, 152-167`, with the defaults of the other arguments. -/
def blockIntegrator (name : String) (options : Option (PDict String ℚ)) : Py Generic :=
  generic (some "odeint") (some name) false options stepDefault rtolDefault atolDefault none none

/-- The shooting block of `simple_functional_mapping_example.py:485-493`. -/
def mappingIntegrator (ns : Namespace) : Py Generic := do
  let m ← argStr ns "method".toList
  let s ← argFloat ns "stepsize".toList
  blockIntegrator m (some [("step_size", s)])

/-- The neural ODE that the shooting block is compared with, `simple_functional_mapping_example.py:524-527`. -/
def neuralOdeIntegrator (ns : Namespace) : Py Generic := do
  let m ← argStr ns "method".toList
  generic (some "odeint") (some m) false none stepDefault (1 / 10 ^ 8) (1 / 10 ^ 12) none none

/-- The default integrator of `BasicResNet`, `res_net.py:55-62`. -/
def resNetIntegrator : Py Generic :=
  generic (some "odeint") (some "rk4") false (some [("step_size", 1 / 10)]) stepDefault rtolDefault atolDefault none none

end Verif.Solvers
