import Verif.Base.Py
import Mathlib.Algebra.Order.Ring.Rat

/-!
# The learning rate scheduler

Models `/repo/neuro_shooting/custom_lr_scheduler.py`, lines 58-185.  Learning rates, factor, thresholds
and metric values are exact rational numbers; metrics may also be infinite or NaN.  `verbose`
(printing only) is not modelled.
-/

namespace Verif.Scheduler
open Verif

/-- A floating point metric value. -/
inductive Num
  | nan
  | negInf
  | fin (q : ℚ)
  | posInf
  deriving DecidableEq

namespace Num

/-- `a < b`; comparisons with NaN are false. -/
def lt : Num → Num → Bool
  | .fin a, .fin b => decide (a < b)
  | .negInf, .fin _ => true
  | .negInf, .posInf => true
  | .fin _, .posInf => true
  | _, _ => false

/-- `a * q` for a finite factor. -/
def mulQ : Num → ℚ → Num
  | .nan, _ => .nan
  | .fin a, q => .fin (a * q)
  | .posInf, q => if 0 < q then .posInf else if q < 0 then .negInf else .nan
  | .negInf, q => if 0 < q then .negInf else if q < 0 then .posInf else .nan

/-- `a + q` for a finite summand. -/
def addQ : Num → ℚ → Num
  | .fin a, q => .fin (a + q)
  | x, _ => x

end Num

inductive Mode | min | max
  deriving DecidableEq
inductive TMode | rel | abs
  deriving DecidableEq

/-- The attributes of the scheduler object, except the optimizer. `cmpMode`, `cmpTMode`, `cmpThreshold` are the
arguments frozen in `self.is_better = partial(self._cmp, mode, threshold_mode, threshold)`. -/
structure Sched where
  factor : ℚ
  minLrs : List ℚ
  patience : Int
  cooldown : Int
  cooldownCounter : Int
  mode : Mode
  threshold : ℚ
  tmode : TMode
  best : Num
  numBad : Int
  modeWorse : Num
  eps : ℚ
  lastEpoch : Int
  converged : Bool
  current : Option Num
  cmpMode : Mode
  cmpTMode : TMode
  cmpThreshold : ℚ
  deriving DecidableEq

/-- The scheduler together with the learning rates of the optimizer's parameter groups. -/
structure World where
  sched : Sched
  lrs : List ℚ
  deriving DecidableEq

/-- `_cmp`, lines 152-165. -/
def cmp (mode : Mode) (tmode : TMode) (threshold : ℚ) (a best : Num) : Bool :=
  match mode, tmode with
  | .min, .rel => a.lt (best.mulQ (1 - threshold))
  | .min, .abs => a.lt (best.addQ (-threshold))
  | .max, .rel => (best.mulQ (threshold + 1)).lt a
  | .max, .abs => (best.addQ threshold).lt a

/-- `self.is_better(current, best)` -/
def isBetter (s : Sched) (a best : Num) : Bool := cmp s.cmpMode s.cmpTMode s.cmpThreshold a best

/-- Lines 173-176. -/
def worseOf : Mode → Num
  | .min => .posInf
  | .max => .negInf

/-- `_init_is_better`, lines 173-178 (known mode and threshold mode). -/
def initIsBetter (s : Sched) : Sched :=
  { s with modeWorse := worseOf s.mode, cmpMode := s.mode, cmpTMode := s.tmode, cmpThreshold := s.threshold }

/-- `_reset`, lines 102-106. -/
def reset (s : Sched) : Sched :=
  { s with best := s.modeWorse, cooldownCounter := 0, numBad := 0 }

def parseMode (m : String) : Py Mode :=
  if m = "min" then .ok .min else if m = "max" then .ok .max else .error .valueError

def parseTMode (m : String) : Py TMode :=
  if m = "rel" then .ok .rel else if m = "abs" then .ok .abs else .error .valueError

/-- The `min_lr` argument: a number or a list/tuple. -/
inductive MinLr
  | scalar (q : ℚ)
  | list (l : List ℚ)

/-- Lines 71-77. -/
def minLrsOf (m : MinLr) (groups : Nat) : Py (List ℚ) :=
  match m with
  | .list l => if l.length ≠ groups then .error .valueError else .ok l
  | .scalar q => .ok (List.replicate groups q)

/-- `__init__`, lines 58-97, on an optimizer with learning rates `lrs` (the `TypeError` for something that
is not an optimizer is not modelled). -/
def construct (lrs : List ℚ) (mode : String) (factor : ℚ) (patience : Int) (threshold : ℚ)
    (tmode : String) (cooldown : Int) (minLr : MinLr) (eps : ℚ) : Py World := do
  if factor ≥ 1 then .error .valueError
  else
    let mins ← minLrsOf minLr lrs.length
    let m ← parseMode mode
    let tm ← parseTMode tmode
    let s : Sched :=
      { factor := factor, minLrs := mins, patience := patience, cooldown := cooldown, cooldownCounter := 0,
        mode := m, threshold := threshold, tmode := tm, best := .nan, numBad := 0, modeWorse := .nan,
        eps := eps, lastEpoch := -1, converged := false, current := none,
        cmpMode := m, cmpTMode := tm, cmpThreshold := threshold }
    .ok ⟨reset (initIsBetter s), lrs⟩

/-- The loop of `_reduce_lr`, lines 131-145, on the remaining groups and their minimum rates.  A group
without minimum rate (added to the optimizer later) is an `IndexError`. -/
def reduceLoop (s : Sched) : List ℚ → List ℚ → Py (Sched × List ℚ)
  | [], _ => .ok (s, [])
  | _ :: _, [] => .error .indexError
  | lr :: lrs, m :: ms =>
    if s.eps < lr - max (lr * s.factor) m then do
      let r ← reduceLoop (reset s) lrs ms
      .ok (r.1, max (lr * s.factor) m :: r.2)
    else do
      let r ← reduceLoop { s with converged := true } lrs ms
      .ok (r.1, lr :: r.2)

/-- Lines 109-123: everything `step` does before deciding about a reduction. -/
def observe (s : Sched) (m : Num) (epoch : Option Int) : Sched :=
  let s : Sched := { s with current := some m, lastEpoch := epoch.getD (s.lastEpoch + 1) }
  let s : Sched := if isBetter s m s.best then { s with best := m, numBad := 0 }
    else { s with numBad := s.numBad + 1 }
  if 0 < s.cooldownCounter then { s with cooldownCounter := s.cooldownCounter - 1, numBad := 0 } else s

/-- Line 125. -/
def attempts (s : Sched) (m : Num) (epoch : Option Int) : Bool :=
  decide (s.patience < (observe s m epoch).numBad)

/-- `step`, lines 108-128. -/
def step (w : World) (m : Num) (epoch : Option Int) : Py World :=
  let s := observe w.sched m epoch
  if s.patience < s.numBad then do
    let r ← reduceLoop s w.lrs s.minLrs
    .ok ⟨{ r.1 with cooldownCounter := r.1.cooldown, numBad := 0 }, r.2⟩
  else .ok ⟨s, w.lrs⟩

/-- A sequence of `step(metric)` calls (optionally with an explicit epoch number). -/
def run (w : World) : List (Num × Option Int) → Py World
  | [] => .ok w
  | e :: es => do run (← step w e.1 e.2) es

/-- `state_dict`, lines 180-181: all attributes except `optimizer` and `is_better`. -/
structure Saved where
  factor : ℚ
  minLrs : List ℚ
  patience : Int
  cooldown : Int
  cooldownCounter : Int
  mode : Mode
  threshold : ℚ
  tmode : TMode
  best : Num
  numBad : Int
  modeWorse : Num
  eps : ℚ
  lastEpoch : Int
  converged : Bool
  current : Option Num
  deriving DecidableEq

def stateDict (s : Sched) : Saved :=
  ⟨s.factor, s.minLrs, s.patience, s.cooldown, s.cooldownCounter, s.mode, s.threshold, s.tmode, s.best,
    s.numBad, s.modeWorse, s.eps, s.lastEpoch, s.converged, s.current⟩

/-- `load_state_dict`, lines 183-185: update the attributes, then rebuild `is_better` (and `mode_worse`). -/
def loadStateDict (s : Sched) (d : Saved) : Sched :=
  initIsBetter
    { s with
      factor := d.factor, minLrs := d.minLrs, patience := d.patience, cooldown := d.cooldown,
      cooldownCounter := d.cooldownCounter, mode := d.mode, threshold := d.threshold, tmode := d.tmode,
      best := d.best, numBad := d.numBad, modeWorse := d.modeWorse, eps := d.eps,
      lastEpoch := d.lastEpoch, converged := d.converged, current := d.current }

end Verif.Scheduler
