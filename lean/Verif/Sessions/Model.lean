import Verif.Integrand.Model
import Verif.Hooks.Model

/-!
# Recording for a while: register a hook, evaluate, remove the hook

`demos/neurips20/cc.py:314-337`, `demos/neurips20/spiral.py:680-699, 708-728`, `demos/neurips20/simple_functional_mapping_example.py:703-712`.

The integrand is the state machine of `Verif.Integrand`; a forward pass of a block is seen from the integrand: a list of resets, hand-overs of parameters and evaluations.
-/

namespace Verif.Sessions
open Verif Verif.Integrand Verif.TimeParams

variable {T X Par Dot N R H D : Type} [LinearOrder T] [OfNat T 0]

/-- What a forward pass of a block does with its integrand (`shooting_blocks.py`, `forward`: `reset`, in the particle-free modes
`set_externally_managed_rnn_parameter_func`, and the evaluations of the integration method). -/
inductive PassOp (T X R Par : Type) where
  | reset
  | setExternal (f : Table T Par × Cache T)
  | eval (t : T) (x : X) (r : R × R)

def PassOp.op : PassOp T X R Par → Op T X R Par H D
  | .reset => .reset
  | .setExternal f => .setExternal f
  | .eval t x r => .eval t x r

/-- What can be seen: the evaluations that were completed, the calls of hooks, and how it ended. -/
structure Outcome (T X Par Dot H D : Type) where
  done : List (T × X × Out Par Dot)
  calls : List (H × Args T X Par Dot D)
  result : Py Unit

/-- The evaluation an operation has completed. -/
def completed : PassOp T X R Par → Option (Py (Out Par Dot)) → List (T × X × Out Par Dot)
  | .eval t x _, some (.ok o) => [(t, x, o)]
  | _, _ => []

/-- The exception that ended an operation. -/
def raised : Option (Py (Out Par Dot)) → Option Err
  | some (.error e) => some e
  | _ => none

/-- A forward pass: the first exception ends it. -/
def pass [Field N] (cfg : Cfg T X Par Dot N R H D) : List (PassOp T X R Par) → St T Par N H D → St T Par N H D × Outcome T X Par Dot H D
  | [], s => (s, ⟨[], [], .ok ()⟩)
  | o :: l, s =>
    let r := step cfg s o.op
    match raised r.2.result with
    | some e => (r.1, ⟨[], r.2.calls, .error e⟩)
    | none =>
      let q := pass cfg l r.1
      (q.1, ⟨completed o r.2.result ++ q.2.done, r.2.calls ++ q.2.calls, q.2.result⟩)

/-- A recording: `hook_in` (`cc.py:326-337`) and the same five steps in `spiral.py:680-699` and `simple_functional_mapping_example.py:703-712`: a hook is registered,
a new dictionary `d` is set as custom data, a pass is made, and the hook is removed.  There is no `try`: an exception in the pass skips the removal. -/
def record [Field N] (cfg : Cfg T X Par Dot N R H D) (h : H) (d : D) (l : List (PassOp T X R Par)) (s : St T Par N H D) : St T Par N H D × Outcome T X Par Dot H D :=
  let k := s.handles.length
  let s1 := (step cfg s (.register h)).1
  let s2 := (step cfg s1 (.setCustom d)).1
  let q := pass cfg l s2
  match q.2.result with
  | .error _ => q
  | .ok _ => ((step cfg q.1 (.remove k)).1, q.2)

/-- What a program does: a recording, a pass without recording (training, testing), or something elsewhere that takes an id for a hook of another module. -/
inductive Action (T X R Par H D : Type) where
  | record (h : H) (d : D) (l : List (PassOp T X R Par))
  | pass (l : List (PassOp T X R Par))
  | otherId

def act [Field N] (cfg : Cfg T X Par Dot N R H D) : Action T X R Par H D → St T Par N H D → St T Par N H D × Outcome T X Par Dot H D
  | .record h d l, s => record cfg h d l s
  | .pass l, s => pass cfg l s
  | .otherId, s => ((step cfg s .otherId).1, ⟨[], [], .ok ()⟩)

/-- A history of actions with what was seen of each.  A program may catch an exception and continue. -/
def history [Field N] (cfg : Cfg T X Par Dot N R H D) : List (Action T X R Par H D) → St T Par N H D → St T Par N H D × List (Action T X R Par H D × Outcome T X Par Dot H D)
  | [], s => (s, [])
  | a :: l, s =>
    let r := act cfg a s
    let q := history cfg l r.1
    (q.1, (a, r.2) :: q.2)

/-! ## The hook of `cc.py` -/

open Verif.Hooks (Heap Call Custom Rec Run Event Ref Dict2 Tensor Stored)

/-- `d[a][b]` -/
def lookup2 (d : Dict2) (a b : String) : Py Ref :=
  match SDict.get? d a with
  | none => .error .keyError
  | some x => match SDict.get? x b with
    | none => .error .keyError
    | some r => .ok r

/-- `custom_hook_data[k].append(v)`: the list is looked up (and created) before `v` is computed. -/
def push (k : String) (v : Py Rec) : Run Unit := fun c =>
  match c.log.get? k with
  | some l => match v with
    | .ok x => (.ok (), { c with log := c.log.set k (l ++ [x]) })
    | .error e => (.error e, c)
  | none =>
    if c.isDefaultdict then
      if c.makesList then
        match v with
        | .ok x => (.ok (), { c with log := c.log.set k [x] })
        | .error e => (.error e, { c with log := c.log.set k [] })
      else (.error .attributeError, c)
    else (.error .keyError, c)

/-- `x.clone()`: memory of its own. -/
def clone (h : Heap) (r : Py Ref) : Py Rec := r.map fun r => .arr (.copy (h r.addr))

/-- `linear_transform_hook` (`cc.py:314-323`) -/
def ccHook (h : Heap) (c : Call) : Run Unit := do
  push "t" (.ok (.num c.t))
  push "q1" (clone h (lookup2 c.state "simple" "q1"))
  push "l1_weight" (clone h (lookup2 c.params "l1" "weight"))
  push "l1_bias" (clone h (lookup2 c.params "l1" "bias"))
  push "l2_weight" (clone h (lookup2 c.params "l2" "weight"))
  push "l2_bias" (clone h (lookup2 c.params "l2" "bias"))

/-- Calls of the hook and changes of tensors in place; the first exception ends it. -/
def ccHistory : List Event → Heap → Custom → Heap × Custom × Py Unit
  | [], h, c => (h, c, .ok ())
  | .write a t :: l, h, c => ccHistory l (Function.update h a t) c
  | .call x :: l, h, c =>
    match ccHook h x c with
    | (.error e, c') => (h, c', .error e)
    | (.ok _, c') => ccHistory l h c'

/-- The names of the parameter objects of the classes `cc.py` can use, with the names of their parameters (`shooting_models.py:256-266, 480-493, 1154-1166, 1901-1913`;
`SNN_Linear` has a weight, and a bias unless `bias=False`). -/
def layersOf : String → List (String × List String)
  | "AutoShootingIntegrandModelUpDown" => [("l1", ["weight", "bias"]), ("l2", ["weight", "bias"])]
  | "AutoShootingIntegrandModelUpDownUniversal" => [("l1", ["weight", "bias"]), ("l2", ["weight", "bias"]), ("l3", ["weight"])]
  | "AutoShootingIntegrandModelUpdownPeriodic" => [("l1", ["weight", "bias"]), ("l2", ["weight", "bias"]), ("l3", ["weight"])]
  | "AutoShootingIntegrandModelSimple" => [("l1", ["weight", "bias"])]
  | _ => []

/-- What the hook of `cc.py` does when the integrand calls it, as far as the integrand sees it: `None['t']` is a `TypeError`, and in `hook_in` the data are a `defaultdict(list)` (`cc.py:328`). -/
def ccFails (heap : Heap) (toCall : Args T X Par Dot D → Call) (a : Args T X Par Dot D) : Option Err :=
  match a.custom with
  | none => some .typeError
  | some _ => match (ccHook heap (toCall a) ⟨true, true, []⟩).1 with
    | .ok _ => none
    | .error e => some e

end Verif.Sessions
