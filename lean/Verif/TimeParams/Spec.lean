import Verif.TimeParams.Model

/-!
# Specification: buckets by counting
-/

namespace Verif.TimeParams

variable {T P : Type} [LinearOrder T]

/-- Index of the last bucket that starts at or before `t` (0 if there is none). -/
def floorIdx (times : List T) (t : T) : Nat := (times.filter (fun x => x ≤ t)).length - 1

/-- Index of the first bucket that starts at or after `t`. -/
def ceilIdx (times : List T) (t : T) : Nat := (times.filter (fun x => x < t)).length

/-- The bucket answered for `t` when the previous answer came from a bucket starting at `last`. -/
def answerIdx (tb : Table T P) (last t : T) : Nat :=
  if t < tb.minT then 0
  else if ∀ x ∈ tb.times, x ≤ t then tb.times.length - 1
  else if t < last then floorIdx tb.times t
  else ceilIdx tb.times t

/-- A well-formed table: strictly increasing bucket starts between `minT` and `maxT`, one parameter set
per bucket. -/
structure TableOk (tb : Table T P) : Prop where
  increasing : tb.times.Pairwise (· < ·)
  first : tb.times.head? = some tb.minT
  bounded : ∀ x ∈ tb.times, x ≤ tb.maxT
  sameLength : tb.params.length = tb.times.length

/-- The cache points at an existing bucket and stores its start. -/
def CacheOk (tb : Table T P) (c : Cache T) : Prop := ∃ i : Nat, c.idx = i ∧ tb.times[i]? = some c.time

end Verif.TimeParams
