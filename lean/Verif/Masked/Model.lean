import Verif.Base.Py
import Mathlib.Data.List.Sort
import Mathlib.Data.Real.Basic

/-!
# Training with left-out time points (`demos/neurips20/autoencoder.py`, `rot.py`, `balls.py`)

A sequence of `T` images per sample; the first image is encoded and moved through a shooting block, the values at `T` times are decoded.  For
training, one time (`i_eval`) and `n_skip` random ones are left out.  Encoder with block, and decoder, are parameters of the model: `enc` maps the first images
to latent values (time, sample), `dec` maps a list of latent values to a list of images (batch normalisation makes the images depend on the whole list).
-/

namespace Verif.Masked
open Verif

/-- `valid_idx = [j for j in range(self.T) if j != self.i_eval]` (`autoencoder.py:151`) -/
def valid (T : Nat) (iEval : Int) : List Int := ((List.range T).map Int.ofNat).filter (· ≠ iEval)

/-- `l[0:n]` -/
def pyTake {α : Type} (n : Int) (l : List α) : List α := if 0 ≤ n then l.take n.toNat else l.take (l.length - (-n).toNat)

/-- `np.setdiff1d(a, b)`: the sorted distinct elements of `a` that are not in `b`. -/
def setdiff (a b : List Int) : List Int := (a.dedup.insertionSort (· ≤ ·)).filter (· ∉ b)

/-- The selected times for one sample (`autoencoder.py:152-153`); `shuffled` is `valid_idx` after `np.random.shuffle`. -/
def select (nSkip iEval : Int) (shuffled : List Int) : List Int := setdiff shuffled (pyTake nSkip shuffled ++ [iEval])

variable {I L : Type}

/-- `tensor[i]` for a row of `T` entries, with `gather`'s check (`autoencoder.py:175`, `rot.py:351`). -/
def gatherRow {α : Type} (T : Nat) (row : Nat → α) (idx : List Int) : Py (List α) :=
  if idx.all fun k => decide (0 ≤ k) && decide (k < T) then .ok (idx.map fun k => row k.toNat) else .error .runtimeError

/-- `view(N, M, ...)` of a list (`autoencoder.py:183, 189`). -/
def unflatten {α : Type} (N M : Nat) (l : List α) : Py (List (List α)) :=
  if l.length = N * M then .ok ((List.range N).map fun n => (l.drop (n * M)).take M) else .error .runtimeError

/-- `out.squeeze().permute(1,0,2)` of an output of shape `(T, N, 1, d)` (`autoencoder.py:169`): a size 1 among `T`, `N`, `d` is removed as well and `permute` fails. -/
def squeezable (T N d : Nat) : Bool := T ≠ 1 && N ≠ 1 && d ≠ 1

/-- `forward` with `use_mask=True` (`autoencoder.py:163-183`): the latent values and times that are kept and the decoded images, per sample.  `d` is `shooting_dim`.
With no sample, or no time left, an exception is raised here or when the indices are used (`autoencoder.py:155, 175`, `rot.py:348`); its kind is not modelled. -/
def forwardMasked (T d : Nat) (nSkip iEval : Int) (dec : List L → List I) (latent : Nat → Nat → L) (shuffles : List (List Int)) :
    Py (List (List L) × List (List Int) × List (List I)) :=
  let N := shuffles.length
  let idx := shuffles.map (select nSkip iEval)
  let M : Int := T - (nSkip + 1)
  if squeezable T N d = false then .error .runtimeError
  else if idx.isEmpty || idx.any List.isEmpty then .error .runtimeError
  else do
    let out ← idx.zipIdx.mapM fun p => gatherRow T (fun t => latent t p.2) p.1
    if 0 ≤ M ∧ out.flatten.length = N * M.toNat then do
      let s ← unflatten N M.toNat (dec out.flatten)
      .ok (out, idx, s)
    else .error .runtimeError

/-- `forward` with `use_mask=False` (`autoencoder.py:163-169, 184-189`). -/
def forwardFull (T d N : Nat) (dec : List L → List I) (latent : Nat → Nat → L) : Py (List (List I)) :=
  if squeezable T N d = false then .error .runtimeError
  else unflatten N T (dec (((List.range N).map fun n => (List.range T).map fun t => latent t n).flatten))

/-- The loss of a training batch without the norm penalty (`rot.py:342-357`): `inp n t` is the image of sample `n` at time `t`, `sq` the sum of the squared differences of two images,
`pix` the number of pixels. -/
noncomputable def simLoss (T d : Nat) (nSkip iEval : Int) (enc : (Nat → I) → Nat → Nat → L) (dec : List L → List I) (sq : I → I → ℝ) (pix : Nat) (weight : ℝ)
    (inp : Nat → Nat → I) (shuffles : List (List Int)) : Py ℝ := do
  let (_, idx, out) ← forwardMasked T d nSkip iEval dec (enc fun n => inp n 0) shuffles
  let target ← (List.zipIdx idx).mapM fun p => gatherRow T (inp p.2) p.1
  .ok (weight * (List.zipWith sq target.flatten out.flatten).sum / ((shuffles.length : ℝ) * (T - (nSkip + 1) : Int) * pix))

/-- Python's index `l[i]` into a row of `T` entries. -/
def pyIndex {α : Type} (T : Nat) (row : Nat → α) (i : Int) : Py α :=
  if 0 ≤ i ∧ i < T then .ok (row i.toNat) else if -T ≤ i ∧ i < 0 then .ok (row (i + T).toNat) else .error .indexError

/-- The errors of one batch in `evaluate` (`rot.py:238-244`): the mean squared difference of the images at `i_eval`. -/
noncomputable def evalBatch (T d N : Nat) (iEval : Int) (enc : (Nat → I) → Nat → Nat → L) (dec : List L → List I) (sq : I → I → ℝ) (pix : Nat) (inp : Nat → Nat → I) : Py (List ℝ) := do
  let out ← forwardFull T d N dec (enc fun n => inp n 0)
  (List.zipIdx out).mapM fun p => do
    let r ← (pyIndex T (fun t => p.1[t]?) iEval).bind fun o => o.elim (.error .indexError) .ok
    let v ← pyIndex T (inp p.2) iEval
    .ok (sq r v / pix)

/-! ## The mode of the network -/

/-- What reaches the decoder: whether it is in training mode, and the times (per sample) of the latent values. -/
structure Call where
  training : Bool
  times : List (List Int)
deriving DecidableEq, Repr

/-- An epoch: the shuffles of the training batches and the sizes of the test batches. -/
abbrev Epoch := List (List (List Int)) × List Nat

/-- One epoch of `rot.py` (lines 330-372): the training batches, then `evaluate`, which starts with `model.eval()`.  The mode after it. -/
def rotEpoch (T : Nat) (nSkip iEval : Int) (mode : Bool) (e : Epoch) : List Call × Bool :=
  (e.1.map (fun sh => ⟨mode, sh.map (select nSkip iEval)⟩) ++ e.2.map (fun N => ⟨false, List.replicate N ((List.range T).map Int.ofNat)⟩), false)

/-- One epoch of `balls.py` (lines 362-396): `model.train()` comes first; all times are used. -/
def ballsEpoch (T : Nat) (_ : Bool) (e : Epoch) : List Call × Bool :=
  (e.1.map (fun sh => ⟨true, sh.map fun _ => (List.range T).map Int.ofNat⟩) ++ e.2.map (fun N => ⟨false, List.replicate N ((List.range T).map Int.ofNat)⟩), false)

/-- The training loop: a network starts in training mode (`torch.nn.Module`). -/
def trainLoop (epoch : Bool → Epoch → List Call × Bool) : Bool → List Epoch → List (List Call)
  | _, [] => []
  | mode, e :: es => (epoch mode e).1 :: trainLoop epoch (epoch mode e).2 es

end Verif.Masked
