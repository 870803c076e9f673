import Verif.Base.Py

/-!
# Cutting a time vector into chunks and predicting chunk by chunk

Models `get_time_chunks` and `compute_validation_data` of `/repo/demos/neurips20/spiral.py`.  Time vectors and trajectories (tensors
whose first dimension is time) are lists.
-/

namespace Verif.Chunks
open Verif

variable {σ τ Y P : Type}

/-- `t[a:b]` for `0 ≤ a`, `0 ≤ b`. -/
def slice (t : List τ) (a b : Nat) : List τ := (t.take b).drop a

/-- The local variables of `get_time_chunks`, lines 381-406. -/
structure Loop (τ : Type) where
  cur : Nat
  chunks : List (List τ)
  /-- `continue_chunking` -/
  go : Bool

/-- The body of the loop, lines 392-404.  `cur_idx` never exceeds the index of the last point, so all differences are those of Python (except
the index -1 after the last iteration for an empty time vector, which is not used). -/
def body (t : List τ) (chunk : Nat) (fromZero : Bool) (L : Loop τ) : Loop τ :=
  let stop := decide (t.length ≤ L.cur + chunk)
  let desired := if stop then t.length else L.cur + chunk
  let current := if fromZero then slice t 0 (desired - L.cur) else slice t L.cur desired
  ⟨desired - 1, L.chunks ++ [current], !stop⟩

/-- `while continue_chunking`, line 391, with at most `fuel` iterations; `none` if it has not finished. -/
def whileLoop (t : List τ) (chunk : Nat) (fromZero : Bool) : Nat → Loop τ → Option (List (List τ))
  | 0, L => if L.go then none else some L.chunks
  | fuel + 1, L => if L.go then whileLoop t chunk fromZero fuel (body t chunk fromZero L) else some L.chunks

/-- `get_time_chunks`, lines 381-406. -/
def getTimeChunks (fuel : Nat) (t : List τ) (chunk : Int) (fromZero : Bool) : Option (List (List τ)) :=
  if chunk ≤ 0 then some [t] else whileLoop t chunk.toNat fromZero fuel ⟨0, [], true⟩

/-- What is used of a shooting block: `set_integration_time_vector`, `forward` with `x` (the first component of the result: the values at all times)
and `get_norm_penalty`. -/
structure Blk (σ τ Y P : Type) where
  setTimes : List τ → σ → σ
  call : Y → σ → σ × Py (List Y)
  penalty : σ → P

/-- `val[a:a+n, ...] = pred`, line 424: the sizes have to agree, or there is one value for all places.  (Broadcasting in the dimensions of
one value is not modelled.) -/
def assign (val : List Y) (a n : Nat) (pred : List Y) : Py (List Y) :=
  let m := min (a + n) val.length - a
  if pred.length = m then .ok (val.take a ++ pred ++ val.drop (a + m))
  else
    match pred with
    | [y] => .ok (val.take a ++ List.replicate m y ++ val.drop (a + m))
    | _ => .error .runtimeError

/-- The local variables of `compute_validation_data`. -/
structure Pred (Y P : Type) where
  val : List Y
  cur : Nat
  pen : Option P

/-- One iteration, lines 416-425; `cur_idx` is a natural number because chunks are not empty (the index after an empty chunk is not used). -/
def predStep (B : Blk σ τ Y P) (y0 : Y) (i : Nat) (c : List τ) (s : σ) (L : Pred Y P) : σ × Py (Pred Y P) :=
  match (if i = 0 then some y0 else L.val[L.cur]?) with
  | none => (B.setTimes c s, .error .indexError)
  | some x =>
    match B.call x (B.setTimes c s) with
    | (s, .error e) => (s, .error e)
    | (s, .ok pred) =>
      match assign L.val L.cur c.length pred with
      | .error e => (s, .error e)
      | .ok val => (s, .ok ⟨val, L.cur + c.length - 1, if i = 0 then some (B.penalty s) else L.pen⟩)

/-- The loop over the chunks, lines 416-425. -/
def predLoop (B : Blk σ τ Y P) (y0 : Y) : Nat → List (List τ) → σ → Pred Y P → σ × Py (Pred Y P)
  | _, [], s, L => (s, .ok L)
  | i, c :: cs, s, L =>
    match predStep B y0 i c s L with
    | (s, .error e) => (s, .error e)
    | (s, .ok L) => predLoop B y0 (i + 1) cs s L

/-- `compute_validation_data`, lines 408-432; `none` if cutting the times does not terminate. -/
def computeValidation (fuel : Nat) (B : Blk σ τ Y P) (zero : Y) (t : List τ) (y0 : Y) (longRange : Bool) (chunk : Int) (fromZero : Bool) (s : σ) :
    Option (σ × Py (List Y × P)) :=
  if longRange then
    match getTimeChunks fuel t chunk fromZero with
    | none => none
    | some cs =>
      match predLoop B y0 0 cs s ⟨List.replicate t.length zero, 0, none⟩ with
      | (s, .error e) => some (s, .error e)
      | (s, .ok ⟨val, _, some p⟩) => some (s, .ok (val, p))
      | (s, .ok ⟨_, _, none⟩) => some (s, .error .unboundLocal)
  else
    match B.call y0 (B.setTimes t s) with
    | (s, .error e) => some (s, .error e)
    | (s, .ok val) => some (s, .ok (val, B.penalty s))

end Verif.Chunks
