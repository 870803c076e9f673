import Mathlib.Data.List.Basic
import Mathlib.Tactic.Ring

/-!
# Tensors

A `torch.Tensor` is modelled by its shape and the row-major list of its elements.  Dtype, device and
memory layout (strides) are not modelled.  The primitives follow the index arithmetic documented
for torch:

* `vol`        number of elements of a shape,
* `rows`       the sub-tensors along the leading dimension,
* `get?`       element access by a multi-index,
* `select`     picking positions along one dimension (covers `t[:, a:b, ...]` and `t[:, o::s, ...]`),
* `cat2`       `torch.cat((a, b), dim=d)`.
-/

namespace Verif

variable {α : Type _}

/-- Number of elements of a shape (`torch.prod` of the sizes). -/
def vol : List Nat → Nat
  | [] => 1
  | n :: s => n * vol s

structure Tensor (α : Type _) where
  shape : List Nat
  data : List α
  deriving DecidableEq, Repr

namespace Tensor

/-- Representation invariant: as many elements as the shape says. -/
def WF (t : Tensor α) : Prop := t.data.length = vol t.shape

instance (t : Tensor α) : Decidable t.WF := by unfold WF; infer_instance

/-- The first `n` consecutive pieces of length `m` of a list. -/
def rows (m : Nat) : Nat → List α → List (List α)
  | 0, _ => []
  | n + 1, d => d.take m :: rows m n (d.drop m)

/-- Element access by multi-index on row-major data. -/
def getData? : List Nat → List α → List Nat → Option α
  | [], d, [] => d[0]?
  | n :: s, d, i :: is =>
    if i < n then getData? s ((d.drop (i * vol s)).take (vol s)) is else none
  | _, _, _ => none

/-- `t[i1, i2, ...]`; `none` when out of range. -/
def get? (t : Tensor α) (idx : List Nat) : Option α := getData? t.shape t.data idx

/-- `t[i, ...]`: the sub-tensor at position `i` of the leading dimension. -/
def index0 (t : Tensor α) (i : Nat) : Tensor α :=
  ⟨t.shape.tail, (t.data.drop (i * vol t.shape.tail)).take (vol t.shape.tail)⟩

/-- Row-major data of the sub-tensor that picks the positions `sel` along dimension `d`. -/
def selData : Nat → List Nat → List Nat → List α → List α
  | 0, _ :: s, sel, d => sel.flatMap (fun i => (d.drop (i * vol s)).take (vol s))
  | k + 1, n :: s, sel, d => (rows (vol s) n d).flatMap (selData k s sel)
  | _, [], _, d => d

/-- Picking positions `sel` along dimension `d` (all positions must be in range). -/
def select (t : Tensor α) (d : Nat) (sel : List Nat) : Tensor α :=
  ⟨t.shape.set d sel.length, selData d t.shape sel t.data⟩

/-- Row-major data of the concatenation along dimension `d`. -/
def catData : Nat → List Nat → List Nat → List α → List α → List α
  | 0, _, _, a, b => a ++ b
  | k + 1, n :: s, _ :: s', a, b =>
    (List.zipWith (catData k s s') (rows (vol s) n a) (rows (vol s') n b)).flatten
  | _, _, _, a, _ => a

/-- Shapes that agree except possibly in dimension `k`, which exists. -/
def Compat : Nat → List Nat → List Nat → Prop
  | 0, _ :: s, _ :: s' => s = s'
  | k + 1, n :: s, n' :: s' => n = n' ∧ Compat k s s'
  | _, _, _ => False

instance Compat.dec : ∀ k s s', Decidable (Compat k s s')
  | 0, _ :: s, _ :: s' => by unfold Compat; infer_instance
  | k + 1, n :: s, n' :: s' => by
    unfold Compat
    have := Compat.dec k s s'
    infer_instance
  | 0, [], _ => by unfold Compat; infer_instance
  | 0, _ :: _, [] => by unfold Compat; infer_instance
  | _ + 1, [], _ => by unfold Compat; infer_instance
  | _ + 1, _ :: _, [] => by unfold Compat; infer_instance

/-- Size in dimension `k` (0 when the dimension does not exist). -/
def dimSize (s : List Nat) (k : Nat) : Nat := s.getD k 0

/-- Concatenation of two tensors whose shapes are `Compat` in dimension `k`. -/
def cat2 (k : Nat) (a b : Tensor α) : Tensor α :=
  ⟨a.shape.set k (dimSize a.shape k + dimSize b.shape k), catData k a.shape b.shape a.data b.data⟩

/-- A torch dimension argument: negative values count from the end, out of range is `none`. -/
def normDim (rank : Nat) (d : Int) : Option Nat :=
  if 0 ≤ d then (if d.toNat < rank then some d.toNat else none)
  else (if 0 ≤ d + rank then some (d + rank).toNat else none)

/-- The slice `t[:, ..., lo:hi, ...]` in dimension `k`, bounds clipped as in Python. -/
def sliceDim (t : Tensor α) (k lo hi : Nat) : Tensor α :=
  let n := dimSize t.shape k
  t.select k (List.range' (min lo n) (min hi n - min lo n))

end Tensor
end Verif
