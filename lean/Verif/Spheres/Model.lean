import Verif.Base.Py
import Mathlib.Analysis.SpecialFunctions.Pow.Real
import Mathlib.Analysis.Real.Sqrt

/-!
# Concentric spheres (`demos/neurips20/utils.py`, `cc.py`) and image data loaders (`neuro_shooting/data_loaders.py`)

Real numbers stand for floating point numbers; random draws are arguments.
-/

namespace Verif.Spheres
open Verif

/-! ## Data -/

/-- `torch.norm(x, 2)` -/
noncomputable def norm2 {dim : Nat} (x : Fin dim → ℝ) : ℝ := Real.sqrt (∑ i, x i ^ 2)

/-- The distance of a random point from the origin (`utils.py:36`); `u` is the result of `random()`. -/
noncomputable def distance (dim : Nat) (lo hi u : ℝ) : ℝ := (hi - lo) * u ^ (1 / (dim : ℝ)) + lo

/-- `random_point_in_sphere` (`utils.py:34-39`); `dir` is the result of `torch.randn(dim)`.  `none`: every coordinate is NaN, because the direction is zero. -/
noncomputable def randomPoint (dim : Nat) (lo hi : ℝ) (u : ℝ) (dir : Fin dim → ℝ) : Py (Option (Fin dim → ℝ)) :=
  if dim = 0 then .error .zeroDivision
  else if norm2 dir = 0 then .ok none
  else .ok (some fun i => distance dim lo hi u * (dir i / norm2 dir))

/-- The loop over the points of one sphere (`utils.py:55-59, 62-66`): `draw k` are the random numbers for the `k`-th point made. -/
noncomputable def spherePoints (dim : Nat) (range : ℝ × ℝ) (label : Nat) (start n : Nat) (draw : Nat → ℝ × (Fin dim → ℝ)) : Py (List (Option (Fin dim → ℝ) × Nat)) :=
  (List.range n).mapM fun k => (randomPoint dim range.1 range.2 (draw (start + k)).1 (draw (start + k)).2).map fun x => (x, label)

/-- `ConcentricSphere.__init__` (`utils.py:43-66`): the points with their labels, in order. -/
noncomputable def concentric (dim : Nat) (inner outer : ℝ × ℝ) (nInner nOuter : Nat) (draw : Nat → ℝ × (Fin dim → ℝ)) : Py (List (Option (Fin dim → ℝ) × Nat)) := do
  let a ← spherePoints dim inner 0 0 nInner draw
  let b ← spherePoints dim outer 1 nInner nOuter draw
  .ok (a ++ b)

/-- `generate_data` (`cc.py:263-277`): training and test data, one after the other from the same generator. -/
noncomputable def generateData (draw : Nat → ℝ × (Fin 2 → ℝ)) : Py (List (Option (Fin 2 → ℝ) × Nat) × List (Option (Fin 2 → ℝ) × Nat)) := do
  let a ← concentric 2 (0, 1 / 2) (1, 3 / 2) 1000 2000 draw
  let b ← concentric 2 (0, 1 / 2) (1, 3 / 2) 1000 2000 fun k => draw (3000 + k)
  .ok (a, b)

/-- `np.where(tmp==c)[0]` (`utils.py:88-89`) -/
def positions (targets : List Nat) (c : Nat) : List Nat := (targets.zipIdx.filter fun p => p.1 = c).map Prod.snd

/-- `idx[np.random.randint(0, len(idx), N)]` (`utils.py:92-93`): `draws` are `N` numbers below `len(idx)`. -/
def pick (idx draws : List Nat) : Py (List Nat) := draws.mapM fun j => match idx[j]? with
  | some v => .ok v
  | none => .error .indexError

/-- `sample` (`utils.py:83-95`): the indices of the subset. -/
def sample (targets : List Nat) (N : Nat) (draws0 draws1 : List Nat) : Py (List Nat) :=
  if targets.length < N then .error .assertionError
  else if targets.dedup.length ≠ 2 then .error .assertionError
  else do
    let a ← pick (positions targets 1) draws0
    let b ← pick (positions targets 0) draws1
    .ok (a ++ b)

/-! ## Testing and training a classifier -/

noncomputable def sigmoid (x : ℝ) : ℝ := 1 / (1 + Real.exp (-x))

/-- `Tensor.round`: to the nearest integer, halves to the even one. -/
noncomputable def roundEven (x : ℝ) : ℤ :=
  if x - ⌊x⌋ < 1 / 2 then ⌊x⌋ else if 1 / 2 < x - ⌊x⌋ then ⌊x⌋ + 1 else if Even ⌊x⌋ then ⌊x⌋ else ⌊x⌋ + 1

/-- A batch: outputs of the network with targets. -/
abbrev Batch := List (ℝ × ℕ)

/-- The number of correct predictions in a batch (`cc.py:308-309`). -/
noncomputable def correct (b : Batch) : Nat := b.countP fun p => roundEven (sigmoid p.1) = (p.2 : ℤ)

/-- `test` (`cc.py:299-311`): mean loss and percentage of correct predictions; `loss` is `binary_cross_entropy_with_logits` for one sample and `len` is `len(test_loader.dataset)`. -/
noncomputable def test (loss : ℝ → ℕ → ℝ) (len : Nat) (batches : List Batch) : Py (ℝ × ℝ) :=
  if len = 0 then .error .zeroDivision
  else .ok ((batches.map fun b => (b.map fun p => loss p.1 p.2).sum).sum / len, 100 * (batches.map correct).sum / len)

/-- `train` (`cc.py:281-296`): the number it returns; the losses of the samples are those when their batch is used. -/
noncomputable def trainLoss (weight : ℝ) (batches : List (List ℝ)) : Py ℝ :=
  if batches.length = 0 then .error .zeroDivision else .ok ((batches.map fun b => weight * (b.sum / b.length)).sum / batches.length)

/-! ## Data loaders -/

/-- Consecutive pieces of `size` entries, with the shorter last one (`fuel` bounds the recursion). -/
def chunks {α : Type} (size : Nat) : Nat → List α → List (List α)
  | 0, _ => []
  | _ + 1, [] => []
  | fuel + 1, x :: xs => (x :: xs).take size :: chunks size fuel ((x :: xs).drop size)

/-- `DataLoader(dataset, batch_size=size, shuffle=False, drop_last=...)`: the batches of a pass. -/
def loader {α : Type} (size : Nat) (dropLast : Bool) (l : List α) : Py (List (List α)) :=
  if size = 0 then .error .valueError
  else .ok (if dropLast then (chunks size l.length l).filter fun b => b.length = size else chunks size l.length l)

/-- The sets that can be loaded. -/
inductive ImageSet where
  | mnist
  | cifar10
  | cifar100
deriving DecidableEq, Repr

/-- The supported names (`data_loaders.py:8, 14-15`). -/
def byName : String → Py ImageSet
  | "MNIST" => .ok .mnist
  | "CIFAR10" => .ok .cifar10
  | "CIFAR100" => .ok .cifar100
  | _ => .error .valueError

/-- The length of a side of the images of a set (facts about the data, not the code). -/
def ImageSet.side : ImageSet → Nat
  | .mnist => 28
  | _ => 32

/-- `nr_of_labels_per_dataset` (`data_loaders.py:10-12`) -/
def ImageSet.classes : ImageSet → Nat
  | .mnist => 10
  | .cifar10 => 10
  | .cifar100 => 100

/-- What `get_data_loaders` returns (`data_loaders.py:5-52`), as far as it is modelled: the side of the training images (`RandomCrop(28, padding=4)` with augmentation), the test and training-evaluation
batches (`drop_last=True`, no shuffling), the side of their images, the number of classes. -/
structure Loaders (α : Type) where
  trainSide : Nat
  testSide : Nat
  test : List (List α)
  trainEval : List (List α)
  classes : Nat
deriving DecidableEq, Repr

def getDataLoaders {α : Type} (name : String) (aug : Bool) (testBatch : Nat) (trainData testData : List α) : Py (Loaders α) := do
  let s ← byName name
  let e ← loader testBatch true trainData
  let t ← loader testBatch true testData
  .ok ⟨if aug then 28 else s.side, s.side, t, e, s.classes⟩

/-! ## Seeds -/

/-- The random part of `cc.py`'s main program (lines 353-360 and after): data are generated, then `setup_random_seed` (lines 61-68; `-1`: nothing is seeded), then the rest runs with the data.
`σ` is the state of the random number generators. -/
def mainProgram {σ D R : Type} (generate : σ → D × σ) (seeded : Int → σ) (rest : D → σ → R) (seed : Int) (start : σ) : D × R :=
  ((generate start).1, rest (generate start).1 (if seed = -1 then (generate start).2 else seeded seed))

end Verif.Spheres
