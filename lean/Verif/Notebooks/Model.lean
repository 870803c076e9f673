import Verif.Base.Py
import Verif.Spheres.Model
import Mathlib.Algebra.BigOperators.Group.List.Basic

/-!
# The analysis notebooks (`demos/neurips20/Analysis-*.ipynb`)

Lines are those of the notebook files.  What `pickle.load` returns is an argument; the files exist.  Figures are the lists of what is drawn.
-/

namespace Verif.Notebooks
open Verif

variable {α K X Y P : Type}

/-- `l[i]` for an index that is not negative. -/
def item (l : List α) (i : Nat) : Py α := match l[i]? with
  | some a => .ok a
  | none => .error .indexError

/-- `l[-1]`. -/
def lastItem (l : List α) : Py α := match l.getLast? with
  | some a => .ok a
  | none => .error .indexError

/-- `np.mean` of a vector; `none` is NaN, the mean of nothing. -/
def mean [Field K] (l : List K) : Option K := if l.length = 0 then none else some (l.sum / l.length)

/-! ## Concentric circles -/

/-- Has the run separated the data (`Analysis-ConcentricCircles.ipynb:307-310`)?  `res` are the triples of training loss, test loss and accuracy that `cc.py:415` collects. -/
noncomputable def separated (res : List (ℝ × ℝ × ℝ)) : Py Bool := do
  let r ← lastItem res
  .ok (decide (|r.2.2 - 100| < 1))

/-- The loop over the runs (`Analysis-ConcentricCircles.ipynb:305-310`). -/
noncomputable def countSeparated : List (List (ℝ × ℝ × ℝ)) → Nat → Py Nat
  | [], sep => .ok sep
  | r :: rs, sep => do
    let b ← separated r
    countSeparated rs (if b then sep + 1 else sep)

/-- The percentage that is printed (`Analysis-ConcentricCircles.ipynb:303-314`). -/
noncomputable def successRate (runs : List (List (ℝ × ℝ × ℝ))) : Py ℝ := do
  let sep ← countSeparated runs 0
  if runs.length = 0 then .error .zeroDivision else .ok ((sep : ℝ) / runs.length * 100)

/-- `torch.cat(.., dim=1)` of arrays whose first axis is time: `acc` is what is joined so far. -/
def joinTime (acc b : List (List Y)) : Py (List (List Y)) := if acc.length = b.length then .ok (List.zipWith (· ++ ·) acc b) else .error .runtimeError

/-- `torch.cat(.., dim=1)`; an empty list is an error. -/
def catTime : List (List (List Y)) → Py (List (List Y))
  | [] => .error .runtimeError
  | a :: l => l.foldlM joinTime a

/-- Colours of the classes (`Analysis-ConcentricCircles.ipynb:228`). -/
inductive Colour where
  | red
  | blue
deriving DecidableEq, Repr

/-- The line and its colour for one sample (`Analysis-ConcentricCircles.ipynb:226-230`). -/
def line (xs : List (List Y)) (ys : List Nat) (i : Nat) : Py (List Y × Colour) := do
  let r ← xs.mapM fun row => item row i
  let c ← item ys i
  .ok (r, if c = 0 then .red else .blue)

/-- `plot_trajectory` (`Analysis-ConcentricCircles.ipynb:205-230`): the lines that are drawn.  `ds` is the sample drawn from the data set and `traj` is `model.trajectory` for a batch,
a list of the points of all samples for every time. -/
def plotTrajectory (traj : List X → Py (List (List Y))) (ds : List (X × Nat)) : Py (List (List Y × Colour)) := do
  let batches ← Spheres.loader 32 false ds
  let outs ← batches.mapM fun b => traj (b.map Prod.fst)
  let xs ← catTime outs
  let ys := (batches.map fun b => b.map Prod.snd).flatten
  (List.range ys.length).mapM fun i => line xs ys i

/-- `l.reshape(h, w)` of a vector with `h * w` entries. -/
def reshape (h w : Nat) (l : List α) : List (List α) := (List.range h).map fun i => (l.drop (i * w)).take w

/-- `xx.ravel()` and `yy.ravel()` side by side (`Analysis-ConcentricCircles.ipynb:253-258`), with the grid of `np.meshgrid(xs, ys)`. -/
def gridPoints (xs ys : List K) : List (K × K) :=
  List.zip (List.replicate ys.length xs).flatten (ys.map fun y => List.replicate xs.length y).flatten

/-- `input_space_plt` (`Analysis-ConcentricCircles.ipynb:248-266`): the rows of the picture from the top (`plt.imshow` puts the first row at the top); `f` is the prediction for a point. -/
def inputSpace (f : K × K → Y) (xs ys : List K) : List (List Y) := reshape ys.length xs.length ((gridPoints xs ys).map f)

/-- `np.max`; the maximum of nothing is an error. -/
def maximum [LinearOrder K] : List K → Py K
  | [] => .error .valueError
  | a :: l => .ok (l.foldl max a)

/-- The curve labelled "Nuc." (`Analysis-ConcentricCircles.ipynb:183-193`): times in the order `idx` of `np.argsort` with the largest of the singular values `S`. -/
def nucCurve [LinearOrder K] (idx : List Nat) (t : List K) (S : List (List K)) : Py (List (K × K)) :=
  idx.mapM fun i => do
    let s ← item S i
    let m ← maximum s
    let u ← item t i
    .ok (u, m)

/-- The path of a particle (`Analysis-ConcentricCircles.ipynb:154-159`): its recorded positions in the order `idx` of `np.argsort`. -/
def particlePath (idx : List Nat) (q : List Y) : Py (List Y) := idx.mapM fun i => item q i

/-! ## Rotated digits -/

/-- What `rot.py:381-388` records for an epoch. -/
structure Entry (K : Type) where
  simLoss : K
  allEvalError : K
  imgEvalErrors : List K
deriving DecidableEq, Repr

/-- `np.sum(eval_errors)/eval_total` with the error of every image (`rot.py:379, 386`); the total counts the errors. -/
def record [Field K] (simLoss : K) (errors : List K) : Entry K := ⟨simLoss, errors.sum / errors.length, errors⟩

/-- The arguments of a run that the notebook looks at. -/
structure Args (K : Type) where
  inflation : Nat
  normWeight : K
  rnn : Bool
  free : Bool
deriving DecidableEq, Repr

/-- A row of the table (`Analysis-RotatedMNIST.ipynb:107-119`; the other arguments and the standard deviation are left out). -/
structure Row (K : Type) where
  resId : Nat
  args : Args K
  avg : Option K
deriving DecidableEq, Repr

/-- One directory (`Analysis-RotatedMNIST.ipynb:101-119`). -/
def tableRow [Field K] (i : Nat) (d : Args K × List (Entry K)) : Py (Row K) := do
  let e ← lastItem d.2
  .ok ⟨i, d.1, mean e.imgEvalErrors⟩

/-- The loop over the directories, in the order of `glob.glob` (`Analysis-RotatedMNIST.ipynb:101-119`). -/
def tableFrom [Field K] : Nat → List (Args K × List (Entry K)) → Py (List (Row K))
  | _, [] => .ok []
  | i, d :: ds => do
    let r ← tableRow i d
    let rs ← tableFrom (i + 1) ds
    .ok (r :: rs)

/-- The condition of the queries (`Analysis-RotatedMNIST.ipynb:424-433`): `weight` is 0.05. -/
def wanted [DecidableEq K] (weight : K) (free : Bool) (a : Args K) : Bool := decide (a.inflation = 10) && decide (a.normWeight = weight) && !a.rnn && (a.free == free)

/-- `df.query(...)['avg_mse'].mean()` (`Analysis-RotatedMNIST.ipynb:423-433`); pandas leaves out NaN. -/
def queryMean [Field K] [DecidableEq K] (weight : K) (free : Bool) (df : List (Row K)) : Option K :=
  mean ((df.filter fun r => wanted weight free r.args).filterMap fun r => r.avg)

/-- `list(df.query(...)['res_id'])` (`Analysis-RotatedMNIST.ipynb:567-571`). -/
def queryIds [DecidableEq K] (weight : K) (free : Bool) (df : List (Row K)) : List Nat := (df.filter fun r => wanted weight free r.args).map fun r => r.resId

/-- `plot_loss_curves` (`Analysis-RotatedMNIST.ipynb:364-365`): both curves. -/
def lossCurves (tracker : List (Entry K)) : Py (List K × List K) := do
  let a ← (List.range' 1 299).mapM fun i => do
    let e ← item tracker i
    .ok e.simLoss
  let b ← (List.range' 1 299).mapM fun i => do
    let e ← item tracker i
    .ok e.allEvalError
  .ok (a, b)

/-- `extract_representations` (`Analysis-RotatedMNIST.ipynb:451-468`): `run` is the first result of the model for a batch of first images, a list of representations for every sample. -/
def extract (run : List X → Py (List (List Y))) (firsts : List X) : Py (List (List Y)) := do
  let batches ← Spheres.loader 25 false firsts
  let zs ← batches.mapM run
  match zs with
  | [] => .error .runtimeError
  | _ => .ok zs.flatten

/-- The points for one colour (`Analysis-RotatedMNIST.ipynb:673-680`): `labels` are the entries of `ll[ix]`.  The table of colours has 16 rows. -/
def tsneGroup (labels : List Nat) (embedded : List P) (a : Nat) : Py (Nat × List P) := do
  let pts ← (labels.zipIdx.filter fun p => p.1 = a).mapM fun p => item embedded p.2
  let c ← item (List.range 16) (a - 1)
  .ok (c, pts)

/-- `plot_tsne` (`Analysis-RotatedMNIST.ipynb:664-680`): for every colour the points that are drawn with it.  `x` has `N` samples with `T` representations each; `ix` are the random numbers
below `N*T`, and `embed` is the embedding into the plane. -/
def plotTsne (embed : List Y → Py (List P)) (T : Nat) (x : List (List Y)) (ix : List Nat) : Py (List (Nat × List P)) :=
  if x.length * T = 0 then .error .valueError
  else do
    let sel ← ix.mapM fun r => item x.flatten r
    let labels ← ix.mapM fun r => item (List.replicate x.length (List.range' 1 T)).flatten r
    let embedded ← embed sel
    (List.range' 1 T).mapM fun a => tsneGroup labels embedded a

/-- One trajectory of `plot_pca` (`Analysis-RotatedMNIST.ipynb:491-495`): the points with their colours. -/
def pcaOne (pca : List Y → Py (List P)) (x : List (List Y)) (i : Nat) : Py (List (P × Nat)) := do
  let z ← item x i
  let b ← pca z
  (List.range 16).mapM fun j => do
    let p ← item b j
    .ok (p, j)

/-- `plot_pca` (`Analysis-RotatedMNIST.ipynb:486-495`): `draws` are the random numbers below the number of samples. -/
def plotPca (pca : List Y → Py (List P)) (x : List (List Y)) (draws : List Nat) : Py (List (List (P × Nat))) := draws.mapM fun i => pcaOne pca x i

/-- `Rs` and `Vs` (`rot.py:391-399`): the sequences of a pass over the test set, in batches. -/
def savedBatches (seqs : List (List Y)) : Py (List (List (List Y))) := Spheres.loader 25 false seqs

/-- `images['Vs'][batch][idx, i, :, :]` for all 16 values of `i` (`Analysis-RotatedMNIST.ipynb:851, 941-944`).  `squeeze` removes the axis of the samples from a batch of one sample, and then there are
too many indices. -/
def shown (batches : List (List (List Y))) (batch idx : Nat) : Py (List Y) := do
  let b ← item batches batch
  if b.length = 1 then .error .indexError
  else do
    let s ← item b idx
    (List.range 16).mapM fun i => item s i

/-! ## Bouncing balls -/

/-- What `balls.py:409-417` saves, as far as the notebook reads it. -/
structure Stats (K Y : Type) where
  testError : Option K
  testErrors : List (List K)
  hat : List (List (List Y))
  tru : List (List (List Y))

/-- `np.mean(.., axis=0)` of an array with `m` columns. -/
def columnMeans [Field K] (m : Nat) (e : List (List K)) : Py (List (Option K)) :=
  (List.range m).mapM fun j => do
    let c ← e.mapM fun row => item row j
    .ok (mean c)

/-- The pictures of one sample (`Analysis-BouncingBalls.ipynb:119-123`): predictions and truth. -/
def samplePictures (d : Stats K Y) (batch sid : Nat) : Py (List Y × List Y) := do
  let rb ← item d.hat batch
  let r ← item rb sid
  let vb ← item d.tru batch
  let v ← item vb sid
  let a ← (List.range 10).mapM fun i => item r i
  let b ← (List.range 10).mapM fun i => item v i
  .ok (a, b)

/-- `plt.plot(range(1,10+1), y)` (`Analysis-BouncingBalls.ipynb:138`): the points. -/
def plotTen (y : List α) : Py (List (Nat × α)) := if y.length = 10 then .ok (List.zip (List.range' 1 10) y) else .error .valueError

/-- `collect_results` with plots (`Analysis-BouncingBalls.ipynb:117-159`): pictures, our curve and the result. -/
def collectPlots [Field K] (m : Nat) (d : Stats K Y) (batch : Nat) (sids : List Nat) : Py (List (List Y × List Y) × List (Nat × Option K) × List (Option K)) := do
  let pics ← sids.mapM fun sid => samplePictures d batch sid
  let means ← columnMeans m d.testErrors
  let curve ← plotTen means
  .ok (pics, curve, means)

/-- `collect_results` without plots (`Analysis-BouncingBalls.ipynb:159`). -/
def collectOnly [Field K] (m : Nat) (d : Stats K Y) : Py (List (Option K)) := columnMeans m d.testErrors

/-- `np.mean` of a list that can hold NaN. -/
def meanNan [Field K] (l : List (Option K)) : Option K := if l.all Option.isSome then mean (l.filterMap id) else none

/-- The saved error (`balls.py:399`): the mean of all entries of the array. -/
def savedError [Field K] (e : List (List K)) : Option K := mean e.flatten

end Verif.Notebooks
