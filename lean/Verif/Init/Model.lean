import Verif.Base.Py
import Mathlib.Algebra.Ring.Basic

/-!
# Parameter initialisation (`parameter_initialization.py`)

An array is a shape together with its entries, as a function of the multi-index (only the values inside the shape matter).
`torch.randn(size)` is an arbitrary function of the size (the draws of this call).
-/

namespace Verif.Init
open Verif

variable {α : Type}

/-- A tensor: the shape, and the entry at every multi-index. -/
structure Arr (α : Type) where
  shape : List Nat
  entry : List Nat → α

/-- `particle_size`: a number, or a tuple/list of numbers. -/
inductive PSize
  | num (n : Nat)
  | seq (ns : List Nat)
deriving DecidableEq, Repr

/-- The four concrete initialisers (`parameter_initialization.py:119,130,155,170`). -/
inductive Kind | vector | vectorSample | conv | convSample
deriving DecidableEq, Repr

/-- An initialiser object (`parameter_initialization.py:7-11`). -/
structure Initializer (α : Type) where
  kind : Kind
  onlyRandom : Bool
  magnitude : α
  sample : Option (Arr α)

/-- `tuple([nr_of_particles, particle_dimension, particle_size])` used as size (`:112,116,127,138`, torch raises `TypeError` for a nested
sequence) and `tuple([nr_of_particles, particle_dimension, *particle_size])` with the type check (`:149-152,163-166,178-181`). -/
def sizeOf (k : Kind) (n dim : Nat) (s : PSize) : Py (List Nat) :=
  match k, s with
  | .vector, .num m | .vectorSample, .num m => .ok [n, dim, m]
  | .vector, .seq _ | .vectorSample, .seq _ => .error .typeError
  | .conv, .seq l | .convSample, .seq l => .ok (n :: dim :: l)
  | .conv, .num _ | .convSample, .num _ => .error .valueError

/-- Broadcasting of two sizes, last dimension first (torch: equal, or one of them 1; a missing dimension counts as 1). -/
def bcastRev : List Nat → List Nat → Option (List Nat)
  | [], b => some b
  | a, [] => some a
  | x :: a, y :: b =>
    if x = y then (bcastRev a b).map (x :: ·)
    else if x = 1 then (bcastRev a b).map (y :: ·)
    else if y = 1 then (bcastRev a b).map (x :: ·)
    else none

/-- The index into an operand of the given size (last dimension first) that belongs to an index into the broadcast result. -/
def projRev : List Nat → List Nat → List Nat
  | x :: a, i :: idx => (if x = 1 then 0 else i) :: projRev a idx
  | _, _ => []

/-- `a + b` with broadcasting; `RuntimeError` if the sizes do not fit. -/
def Arr.add [Add α] (a b : Arr α) : Py (Arr α) :=
  match bcastRev a.shape.reverse b.shape.reverse with
  | none => .error .runtimeError
  | some s => .ok ⟨s.reverse, fun idx =>
      a.entry (projRev a.shape.reverse idx.reverse).reverse + b.entry (projRev b.shape.reverse idx.reverse).reverse⟩

/-- `torch.zeros(size)` -/
def zeros [Zero α] (s : List Nat) : Arr α := ⟨s, fun _ => 0⟩

/-- `constant*torch.ones(size)` -/
def constant [MulOneClass α] (c : α) (s : List Nat) : Arr α := ⟨s, fun _ => c * 1⟩

/-- `magnitude*torch.randn(size)` -/
def scaled [Mul α] (m : α) (randn : List Nat → List Nat → α) (s : List Nat) : Arr α := ⟨s, fun idx => m * randn s idx⟩

/-- `create_random_parameters` (`:126-128,137-139,162-168,177-183`).  `None + tensor` raises `TypeError`. -/
def createRandom [Add α] [Mul α] (i : Initializer α) (randn : List Nat → List Nat → α) (n : Nat) (s : PSize) (dim : Nat) : Py (Arr α) := do
  let size ← sizeOf i.kind n dim s
  match i.kind with
  | .vector | .conv => .ok (scaled i.magnitude randn size)
  | .vectorSample | .convSample =>
    match i.sample with
    | none => .error .typeError
    | some b => b.add (scaled i.magnitude randn size)

/-- `create_zero_parameters` (`:111-113,147-153`) -/
def createZero [Zero α] (i : Initializer α) (n : Nat) (s : PSize) (dim : Nat) : Py (Arr α) := do
  let size ← sizeOf i.kind n dim s
  .ok (zeros size)

/-- `create_constant_parameters` (`:115-117`): only the vector initialisers have this method. -/
def createConstant [MulOneClass α] (i : Initializer α) (n : Nat) (s : PSize) (dim : Nat) (c : α) : Py (Arr α) :=
  match i.kind with
  | .vector | .vectorSample => do
    let size ← sizeOf i.kind n dim s
    .ok (constant c size)
  | .conv | .convSample => .error .attributeError

/-- `create_parameters` (`:77-102`) -/
def createParameters [Semiring α] (i : Initializer α) (randn : List Nat → List Nat → α) (n : Nat) (s : PSize) (dim : Nat)
    (setToZero : Bool) (setToConstant : Option α) : Py (Arr α) :=
  if setToZero && setToConstant.isSome then .error .valueError
  else if setToZero then createZero i n s dim
  else match setToConstant with
    | some c => createConstant i n s dim c
    | none => if i.onlyRandom then createRandom i randn n s dim else .error .valueError

/-- `create_parameters_of_size` (`:51-75`) and `create_parameters_like` (`:25-49`), which differ in where the size comes from. -/
def createOfSize [Semiring α] (i : Initializer α) (randn : List Nat → List Nat → α) (size : List Nat)
    (setToZero : Bool) (setToConstant : Option α) : Py (Arr α) :=
  if setToZero && setToConstant.isSome then .error .valueError
  else if setToZero then .ok (zeros size)
  else match setToConstant with
    | some c => .ok (constant c size)
    | none => if i.onlyRandom then .ok (scaled i.magnitude randn size) else .error .valueError

/-- `create_parameters_like` (`:37-49`) -/
def createLike [Semiring α] (i : Initializer α) (randn : List Nat → List Nat → α) (like : Arr α)
    (setToZero : Bool) (setToConstant : Option α) : Py (Arr α) :=
  createOfSize i randn like.shape setToZero setToConstant

end Verif.Init
