import Verif.Scheduler.Model

/-!
# Specification vocabulary for the scheduler
-/

namespace Verif.Scheduler

/-- What can be observed about one `step` call: did the metric improve on the best value, was the
scheduler cooling down, and did it try to reduce the learning rates. -/
structure Rec where
  improving : Bool
  cooling : Bool
  attempt : Bool
  deriving DecidableEq

def record (s : Sched) (m : Num) (epoch : Option Int) : Rec :=
  ⟨isBetter s m s.best, decide (0 < s.cooldownCounter), attempts s m epoch⟩

/-- The records of a sequence of calls (up to the first exception). -/
def trace (w : World) : List (Num × Option Int) → List Rec
  | [] => []
  | e :: es =>
    record w.sched e.1 e.2 ::
      (match step w e.1 e.2 with | .ok w' => trace w' es | .error _ => [])

/-- A call that counts as bad: not improving and not in cooldown. -/
def Rec.bad (r : Rec) : Prop := r.improving = false ∧ r.cooling = false

/-- A usable configuration: as many minimum rates as parameter groups, and a comparison built from the
current settings.  Holds after construction (`C20_construct`) and after every step (`C16_run`). -/
structure Ok (w : World) : Prop where
  groups : w.sched.minLrs.length = w.lrs.length
  frozen : initIsBetter w.sched = w.sched

/-- The finite metric value `a` improves on the finite best value `b`: it is better by more than the threshold (`abs`), or by more than
the threshold's share of `b` (`rel`). -/
def Improves (mode : Mode) (tmode : TMode) (threshold a b : ℚ) : Prop :=
  match mode, tmode with
  | .min, .abs => threshold < b - a
  | .max, .abs => threshold < a - b
  | .min, .rel => threshold * b < b - a
  | .max, .rel => threshold * b < a - b

/-- The value every metric improves on. -/
def Worst (mode : Mode) : Num := match mode with | .min => .posInf | .max => .negInf

/-- Relation between the learning rates before and after. -/
def LrsDown (mins old new : List ℚ) : Prop :=
  old.length = new.length ∧ ∀ (i : Nat) (o n : ℚ), old[i]? = some o → new[i]? = some n →
    n ≤ o ∧ ∀ m, mins[i]? = some m → m ≤ o → m ≤ n

end Verif.Scheduler
