import Verif.Base.Py
import Verif.Integrator.Model

/-!
# Time-dependent parameters of particle-free shooting blocks

Models `ParticleFreeParameterFunc`, `/repo/neuro_shooting/shooting_blocks.py`, lines 11-84.
-/

namespace Verif.TimeParams
open Verif

variable {T P : Type}

/-- Python list indexing: negative indices count from the end, out of range is an `IndexError`. -/
def pyGet (l : List T) (i : Int) : Py T :=
  match if 0 ≤ i then l[i.toNat]? else if 0 ≤ i + l.length then l[(i + l.length).toNat]? else none with
  | some x => .ok x
  | none => .error .indexError

/-- The attributes written by the constructor (lines 13-31) that never change afterwards. -/
structure Table (T P : Type _) where
  minT : T
  maxT : T
  times : List T
  params : List P

/-- The cache: `last_used_time_idx` and `last_used_time`. -/
structure Cache (T : Type _) where
  idx : Int
  time : T
  deriving DecidableEq

variable [LinearOrder T]

/-- Lines 67-69: `while t < self.last_used_time: idx -= 1; last = times[idx]`. -/
def searchLeft (times : List T) (t : T) (c : Cache T) : Py (Cache T) :=
  if t < c.time then
    if _h : 0 ≤ c.idx - 1 + times.length then
      match pyGet times (c.idx - 1) with
      | .error e => .error e
      | .ok x => searchLeft times t ⟨c.idx - 1, x⟩
    else .error .indexError
  else .ok c
termination_by (c.idx + times.length).toNat
decreasing_by omega

/-- Lines 77-79: `while t > self.last_used_time: idx += 1; last = times[idx]`. -/
def searchRight (times : List T) (t : T) (c : Cache T) : Py (Cache T) :=
  if c.time < t then
    if _h : c.idx + 1 < times.length then
      match pyGet times (c.idx + 1) with
      | .error e => .error e
      | .ok x => searchRight times t ⟨c.idx + 1, x⟩
    else .error .indexError
  else .ok c
termination_by (times.length - c.idx).toNat
decreasing_by omega

/-- `get_parameters_at_time`, lines 44-82: the parameters returned and the cache afterwards.  The
`print` calls are not modelled.  The last `else` (line 81-82) is reached only for incomparable (NaN)
times. -/
def getAt (tb : Table T P) (c : Cache T) (t : T) : Py (P × Cache T) := do
  if tb.params.length = 1 then
    .ok (← pyGet tb.params 0, c)
  else if t < tb.minT then
    let c' : Cache T := ⟨0, ← pyGet tb.times 0⟩
    .ok (← pyGet tb.params 0, c')
  else if tb.maxT < t then
    let c' : Cache T := ⟨(tb.params.length : Int) - 1, ← pyGet tb.times (-1)⟩
    .ok (← pyGet tb.params (-1), c')
  else if t < c.time then
    let c' ← searchLeft tb.times t c
    .ok (← pyGet tb.params c'.idx, c')
  else
    let lst ← pyGet tb.times (-1)
    if lst ≤ t then
      .ok (← pyGet tb.params (-1), ⟨(tb.params.length : Int) - 1, lst⟩)
    else if t = c.time then
      .ok (← pyGet tb.params c.idx, c)
    else
      let c' ← searchRight tb.times t c
      .ok (← pyGet tb.params c'.idx, c')

/-- A sequence of queries; returns the answers in order and the final cache. -/
def queries (tb : Table T P) : Cache T → List T → Py (List P × Cache T)
  | c, [] => .ok ([], c)
  | c, t :: ts => do
    let (p, c') ← getAt tb c t
    let (ps, c'') ← queries tb c' ts
    .ok (p :: ps, c'')

/-- The constructor, lines 13-31, for integration times `first ... last` (exact arithmetic for
`linspace`): bucket starts, one parameter set per bucket, cache at the first bucket. `create i` is the
`i`-th call of `parameter_creation_func`. -/
def construct (steps : Int) (first last : ℚ) (create : Nat → P) : Table ℚ P × Cache ℚ :=
  let times := if 1 < steps then (Integrator.linspace first last (steps + 1).toNat).dropLast else [first]
  (⟨first, last, times, (List.range times.length).map create⟩, ⟨0, first⟩)

end Verif.TimeParams
