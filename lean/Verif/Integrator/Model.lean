import Verif.Base.Py
import Verif.Base.PDict
import Mathlib.Data.Rat.Floor

/-!
# The generic integrator

Models `/repo/neuro_shooting/generic_integrator.py`.  Times are rational numbers for the functions
that compute checkpoints; the interval construction itself only compares times and is modelled over
any linear order (so it also covers floating point numbers without NaN).
-/

namespace Verif.Integrator
open Verif

/-! ## Constructor -/

/-- Lines 68-70: the methods of the two libraries; `none` for an unknown library (line 65). -/
def available (library : String) : Option (List String) :=
  if library = "odeint" then
    some ["dopri5", "adams", "euler", "midpoint", "rk4", "explicit_adams", "fixed_adams"]
  else if library = "anode" then some ["rk2", "rk4"]
  else none

/-- The settings that the rest of the class reads. -/
structure Config where
  library : String
  name : String
  options : PDict String ℚ
  nrCheckpoints : Option Int
  interval : Option ℚ
  deriving DecidableEq

/-- Lines 91-95: the step size is added for fixed-step odeint methods. -/
def addStepSize (library name : String) (options : PDict String ℚ) (stepSize : Option ℚ) :
    PDict String ℚ :=
  match stepSize with
  | none => options
  | some s =>
    if library = "odeint" ∧ name ∉ ["dopri5", "adams"] ∧ options.has "step_size" = false then
      options.set "step_size" s
    else options

/-- `GenericIntegrator.__init__`, lines 58-98.  `options = none` stands for `None`.  The dictionary
passed in is modified in place: the field `options` of the result is also what the caller's dictionary
looks like afterwards.  Option values are numbers here. -/
def construct (library name : Option String) (options : Option (PDict String ℚ)) (stepSize : Option ℚ)
    (nr : Option Int) (interval : Option ℚ) : Py Config :=
  let lib := library.getD "odeint"
  match available lib with
  | none => .error .valueError
  | some ms =>
    let nm := name.getD (ms.headD "")
    if nm ∉ ms then .error .valueError
    else .ok ⟨lib, nm, addStepSize lib nm (options.getD []) stepSize, nr, interval⟩

/-! ## Checkpoint times -/

/-- `torch.linspace(a, b, n)` in exact arithmetic. -/
def linspace (a b : ℚ) (n : Nat) : List ℚ :=
  if n = 1 then [a] else (List.range n).map (fun (i : Nat) => a + (b - a) * i / (n - 1))

/-- `torch.arange(a, b, s)` in exact arithmetic: `RuntimeError` for step 0 or inconsistent bounds. -/
def arange (a b s : ℚ) : Py (List ℚ) :=
  if s = 0 then .error .runtimeError
  else if (0 < s ∧ b < a) ∨ (s < 0 ∧ a < b) then .error .runtimeError
  else .ok ((List.range ⌈(b - a) / s⌉.toNat).map (fun (i : Nat) => a + s * i))

/-- Lines 159-162: append the end point unless it is there already. -/
def arangePoints (a b s : ℚ) : Py (List ℚ) := do
  let ps ← arange a b s
  match ps.getLast? with
  | none => .error .indexError
  | some l => .ok (if l ≠ b then ps ++ [b] else ps)

/-- `checkpointing_time_points[-1] = t_to`, line 167. -/
def forceLast (ps : List ℚ) (b : ℚ) : Py (List ℚ) :=
  if ps = [] then .error .indexError else .ok (ps.dropLast ++ [b])

/-- Lines 150-167: the checkpoint times. A negative number of points is a `RuntimeError` of torch. -/
def checkpointTimes (a b : ℚ) (nr : Option Int) (interval : Option ℚ) : Py (List ℚ) :=
  match nr, interval with
  | some _, some _ => .error .valueError
  | some n, none => if n + 2 < 0 then .error .runtimeError else forceLast (linspace a b (n + 2).toNat) b
  | none, some s => do forceLast (← arangePoints a b s) b
  | none, none => .error .valueError

/-! ## Interval construction -/

/-- One interval: the times handed to the solver and the flags of the times to output.  The code keeps
two parallel lists of these. -/
abbrev Interval (T : Type _) := List T × List Bool

variable {T : Type _} [LinearOrder T]

/-- The `while` loop, lines 190-222, on the remaining times and the remaining checkpoints; `cur`/`fl` are
`current_time_interval` and `current_output_time_point`.  The loop stops when either list is
exhausted; the unfinished interval is not returned. -/
def mergeLoop (cur : List T) (fl : List Bool) : List T → List T → List (Interval T)
  | [], _ => []
  | _ :: _, [] => []
  | x :: ts, c :: cs =>
    if x < c then mergeLoop (cur ++ [x]) (fl ++ [true]) ts (c :: cs)
    else if c < x then
      (cur ++ [c], fl ++ [false]) :: mergeLoop [c] [false] (x :: ts) cs
    else
      (cur ++ [c], fl ++ [true]) :: mergeLoop [c] [false] ts cs
  termination_by ts cs => ts.length + cs.length

/-- Lines 169-224 for given checkpoint times: both lists must start with the same time; the first
iteration of the loop is always entered, so a single checkpoint is an `IndexError` (line 193). -/
def mergeIntervals (t cps : List T) : Py (List (Interval T)) :=
  match t, cps with
  | x :: ts, c :: cs =>
    if x ≠ c then .error .valueError
    else if ts = [] ∨ cs = [] then .error .indexError
    else .ok (mergeLoop [x] [true] ts cs)
  | _, _ => .error .indexError

/-- `create_integration_time_intervals`, lines 145-224. -/
def createIntervals (nr : Option Int) (interval : Option ℚ) (t : List ℚ) : Py (List (Interval ℚ)) :=
  match t with
  | a :: b :: ts => do
    mergeIntervals t (← checkpointTimes a ((b :: ts).getLast (by simp)) nr interval)
  | _ => .error .valueError

/-! ## Integration -/

variable {X : Type _}

/-- A solver: initial value and times to one row per output time (or an exception). -/
abbrev Solver (X T : Type _) := X → List T → Py (List X)

/-- `current_res[flags, ...]`: boolean mask indexing, `IndexError` when the sizes differ. -/
def maskRows (rows : List X) (fl : List Bool) : Py (List X) :=
  if rows.length ≠ fl.length then .error .indexError
  else .ok (((rows.zip fl).filter (fun p => p.2)).map (fun p => p.1))

/-- Body of the loop of lines 239-247.  `out = none` is the initial `None`. -/
def checkpointStep (solve : Solver X T) (acc : X × Option (List X)) (iv : Interval T) :
    Py (X × Option (List X)) := do
  let res ← solve acc.1 iv.1
  match res.getLast? with
  | none => .error .indexError
  | some x =>
    let rows ← maskRows res iv.2
    .ok (x, match acc.2 with | none => some rows | some o => some (o ++ rows))

/-- The loop of lines 232-249 for given intervals; `none` stands for the Python value `None`. -/
def runIntervals (solve : Solver X T) (x0 : X) (ivs : List (Interval T)) : Py (Option (List X)) := do
  let r ← ivs.foldlM (checkpointStep solve) (x0, none)
  .ok r.2

/-- `_integrate_checkpointed`, lines 227-249. -/
def integrateCheckpointed (solve : Solver X ℚ) (nr : Option Int) (interval : Option ℚ) (x0 : X)
    (t : List ℚ) : Py (Option (List X)) := do
  runIntervals solve x0 (← createIntervals nr interval t)

/-- `_integrate_anode`, lines 116-142: only `t` of length 1 equal to 1, or an interval of length 1, and
only the final value is returned (as one row). An empty `t` fails at `t[-1]`. `one` is the external
unit-time solver. -/
def anodeSolver (one : X → X) : Solver X ℚ := fun x t =>
  match t with
  | [] => .error .indexError
  | [a] => if a ≠ 1 then .error .valueError else .ok [one x]
  | [a, b] => if b - a ≠ 1 then .error .valueError else .ok [one x]
  | _ => .error .valueError

/-- `_integrate_direct`, lines 251-255. -/
def directSolver (library : String) (ode : Solver X ℚ) (one : X → X) : Solver X ℚ :=
  if library = "odeint" then ode else anodeSolver one

/-- `integrate`, lines 257-263. -/
def integrate (c : Config) (ode : Solver X ℚ) (one : X → X) (x0 : X) (t : List ℚ) :
    Py (Option (List X)) :=
  let solve := directSolver c.library ode one
  if c.nrCheckpoints = none ∧ c.interval = none then (solve x0 t).map some
  else integrateCheckpointed solve c.nrCheckpoints c.interval x0 t

end Verif.Integrator
