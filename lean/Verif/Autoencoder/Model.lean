import Verif.Masked.Model
import Mathlib.Analysis.SpecialFunctions.Exp
import Mathlib.Analysis.SpecialFunctions.Pow.NNReal

/-!
# The autoencoder of the image programs (`demos/neurips20/autoencoder.py`)

Tensors are sizes with a function for the values (values beyond the sizes have no meaning).  The layers of `torch.nn` are modelled by what they compute, with the exceptions of wrong sizes.  The shooting block is a parameter of the
model: it maps the encoded images to a number of times and the values at (time, sample, coordinate).  Exact arithmetic.
-/

namespace Verif.Autoencoder
open Verif

/-- A tensor of shape `(n, c, h, w)`. -/
structure Batch where
  n : Nat
  c : Nat
  h : Nat
  w : Nat
  val : Nat → Nat → Nat → Nat → ℝ

/-- A tensor of shape `(n, d)`. -/
structure Vecs where
  n : Nat
  d : Nat
  val : Nat → Nat → ℝ

/-! ## Layers -/

/-- Weight and bias of a convolution. -/
structure Kernel where
  weight : Nat → Nat → Nat → Nat → ℝ
  bias : Nat → ℝ

/-- Gain, offset and the running statistics of a batch normalisation. -/
structure Norm where
  gain : Nat → ℝ
  offset : Nat → ℝ
  mean : Nat → ℝ
  var : Nat → ℝ

/-- A layer of the encoder or the decoder.  `conv i o k s p` is `nn.Conv2d(i, o, kernel_size=k, stride=s, padding=(p,p))`, `convT i o k s p q` is `nn.ConvTranspose2d` with `output_padding=(q,q)`, `norm c` is `nn.BatchNorm2d(c)`. -/
inductive Layer
  | conv (i o k s p : Nat) (θ : Kernel)
  | convT (i o k s p q : Nat) (θ : Kernel)
  | norm (c : Nat) (θ : Norm)
  | relu
  | sigmoid

/-- The value at a position, zero outside of the image. -/
def at0 (h w : Nat) (x : Nat → Nat → ℝ) (a b : Int) : ℝ := if 0 ≤ a ∧ a < h ∧ 0 ≤ b ∧ b < w then x a.toNat b.toNat else 0

/-- The values of `nn.Conv2d`. -/
noncomputable def convVal (i k s p : Nat) (θ : Kernel) (x : Batch) (n o y z : Nat) : ℝ :=
  θ.bias o + ∑ a ∈ Finset.range i, ∑ u ∈ Finset.range k, ∑ v ∈ Finset.range k, θ.weight o a u v * at0 x.h x.w (x.val n a) ((s * y + u : Nat) - p) ((s * z + v : Nat) - p)

/-- `nn.Conv2d`: wrong channels, or a kernel larger than the padded image, are a `RuntimeError`. -/
noncomputable def convolve (i o k s p : Nat) (θ : Kernel) (x : Batch) : Py Batch :=
  if x.c ≠ i ∨ x.h = 0 ∨ x.w = 0 ∨ x.h + 2 * p < k ∨ x.w + 2 * p < k then .error .runtimeError
  else .ok ⟨x.n, o, (x.h + 2 * p - k) / s + 1, (x.w + 2 * p - k) / s + 1, convVal i k s p θ x⟩

/-- The values of `nn.ConvTranspose2d`: every input value adds a multiple of the kernel to the output. -/
noncomputable def convTVal (i k s p : Nat) (θ : Kernel) (x : Batch) (n o y z : Nat) : ℝ :=
  θ.bias o + ∑ a ∈ Finset.range i, ∑ u ∈ Finset.range x.h, ∑ v ∈ Finset.range x.w,
    if s * u ≤ y + p ∧ y + p < s * u + k ∧ s * v ≤ z + p ∧ z + p < s * v + k then θ.weight a o (y + p - s * u) (z + p - s * v) * x.val n a u v else 0

/-- The size of `nn.ConvTranspose2d`. -/
def sizeT (k s p q l : Nat) : Nat := (l - 1) * s + k + q - 2 * p

/-- `nn.ConvTranspose2d`: wrong channels, an empty image or an empty result are a `RuntimeError`. -/
noncomputable def convolveT (i o k s p q : Nat) (θ : Kernel) (x : Batch) : Py Batch :=
  if x.c ≠ i ∨ x.h = 0 ∨ x.w = 0 ∨ sizeT k s p q x.h = 0 ∨ sizeT k s p q x.w = 0 then .error .runtimeError
  else .ok ⟨x.n, o, sizeT k s p q x.h, sizeT k s p q x.w, convTVal i k s p θ x⟩

/-- The sum over the samples and pixels of a channel. -/
noncomputable def channelSum (x : Batch) (f : Nat → Nat → Nat → ℝ) : ℝ := ∑ n ∈ Finset.range x.n, ∑ y ∈ Finset.range x.h, ∑ z ∈ Finset.range x.w, f n y z

/-- The mean of a channel over the batch. -/
noncomputable def channelMean (x : Batch) (c : Nat) : ℝ := channelSum x (fun n y z => x.val n c y z) / (x.n * x.h * x.w : Nat)

/-- The sum of the squared differences from the mean. -/
noncomputable def channelSq (x : Batch) (c : Nat) : ℝ := channelSum x fun n y z => (x.val n c y z - channelMean x c) ^ 2

/-- `nn.BatchNorm2d` with given statistics (`eps=1e-5`). -/
noncomputable def normalise (θ : Norm) (mean var : Nat → ℝ) (x : Batch) : Batch :=
  ⟨x.n, x.c, x.h, x.w, fun n c y z => (x.val n c y z - mean c) / Real.sqrt (var c + 1 / 100000) * θ.gain c + θ.offset c⟩

/-- The running statistics after a batch in training mode (`momentum=0.1`, the variance without bias). -/
noncomputable def Norm.next (θ : Norm) (x : Batch) : Norm :=
  ⟨θ.gain, θ.offset, fun c => 9 / 10 * θ.mean c + 1 / 10 * channelMean x c, fun c => 9 / 10 * θ.var c + 1 / 10 * (channelSq x c / ((x.n * x.h * x.w : Nat) - 1))⟩

/-- `nn.BatchNorm2d`: with the statistics of the batch in training mode (a single value per channel is a `ValueError`), with the running ones otherwise. -/
noncomputable def batchNorm (training : Bool) (c : Nat) (θ : Norm) (x : Batch) : Py (Batch × Norm) :=
  if training ∧ x.n * x.h * x.w = 1 then .error .valueError
  else if x.c ≠ c then .error .runtimeError
  else if training then .ok (normalise θ (channelMean x) (fun c => channelSq x c / (x.n * x.h * x.w : Nat)) x, θ.next x)
  else .ok (normalise θ θ.mean θ.var x, θ)

/-- A function applied to every value. -/
def pointwise (f : ℝ → ℝ) (x : Batch) : Batch := ⟨x.n, x.c, x.h, x.w, fun n c y z => f (x.val n c y z)⟩

/-- The logistic function. -/
noncomputable def logistic (v : ℝ) : ℝ := 1 / (1 + Real.exp (-v))

/-- A layer: its output and the layer afterwards. -/
noncomputable def Layer.apply (training : Bool) : Layer → Batch → Py (Batch × Layer)
  | .conv i o k s p θ, x => (convolve i o k s p θ x).bind fun r => .ok (r, .conv i o k s p θ)
  | .convT i o k s p q θ, x => (convolveT i o k s p q θ x).bind fun r => .ok (r, .convT i o k s p q θ)
  | .norm c θ, x => (batchNorm training c θ x).bind fun r => .ok (r.1, .norm c r.2)
  | .relu, x => .ok (pointwise (fun v => max 0 v) x, .relu)
  | .sigmoid, x => .ok (pointwise logistic x, .sigmoid)

/-- `nn.Sequential` -/
noncomputable def sequential (training : Bool) : List Layer → Batch → Py (Batch × List Layer)
  | [], x => .ok (x, [])
  | l :: ls, x => do
    let r ← l.apply training x
    let q ← sequential training ls r.1
    .ok (q.1, r.2 :: q.2)

/-- `Flatten` (lines 7-9): without samples the size `-1` is ambiguous. -/
def flatten (x : Batch) : Py Vecs :=
  if x.n = 0 then .error .runtimeError else .ok ⟨x.n, x.c * x.h * x.w, fun n j => x.val n (j / (x.h * x.w)) (j / x.w % x.h) (j % x.w)⟩

/-- `UnFlatten` (lines 12-19) -/
def unflatten (w : Nat) (v : Vecs) : Py Batch :=
  if v.n = 0 then .error .indexError
  else if v.d / w ^ 2 * w * w ≠ v.d then .error .runtimeError
  else .ok ⟨v.n, v.d / w ^ 2, w, w, fun n c y z => v.val n (c * (w * w) + y * w + z)⟩

/-- Weight and bias of `nn.Linear`. -/
structure Linear where
  weight : Nat → Nat → ℝ
  bias : Nat → ℝ

/-- `nn.Linear(i, o)` -/
noncomputable def linear (i o : Nat) (θ : Linear) (v : Vecs) : Py Vecs :=
  if v.d ≠ i then .error .runtimeError else .ok ⟨v.n, o, fun n j => θ.bias j + ∑ a ∈ Finset.range i, θ.weight j a * v.val n a⟩

/-! ## The network -/

/-- The parameters and running statistics of an autoencoder. -/
structure Params where
  e1 : Kernel
  e2 : Kernel
  e3 : Kernel
  n1 : Norm
  n2 : Norm
  f1 : Linear
  f2 : Linear
  d1 : Kernel
  d2 : Kernel
  d3 : Kernel
  d4 : Kernel
  m1 : Norm
  m2 : Norm
  m3 : Norm

/-- An autoencoder: `h_dim`, the number of times and `shooting_dim`, and its parts without the block. -/
structure Net where
  hDim : Nat
  T : Nat
  d : Nat
  encoder : List Layer
  fc1 : Linear
  fc2 : Linear
  decoder : List Layer

/-- `__init__` (lines 27-64 with `chans = 3`, lines 95-137 with `chans = 1`): `f` is `n_filt`. -/
def Net.new (chans f d T : Nat) (θ : Params) : Net :=
  let hDim := f * 4 ^ 3
  ⟨hDim, T, d,
   [.conv chans f 5 2 2 θ.e1, .norm f θ.n1, .relu, .conv f (f * 2) 5 2 2 θ.e2, .norm (f * 2) θ.n2, .relu, .conv (f * 2) (f * 4) 5 2 2 θ.e3, .relu],
   θ.f1, θ.f2,
   [.convT (hDim / 16) (f * 8) 3 1 0 0 θ.d1, .norm (f * 8) θ.m1, .relu, .convT (f * 8) (f * 4) 5 2 1 0 θ.d2, .norm (f * 4) θ.m2, .relu, .convT (f * 4) (f * 2) 5 2 1 1 θ.d3, .norm (f * 2) θ.m3, .relu,
    .convT (f * 2) 1 5 1 2 0 θ.d4, .sigmoid]⟩

/-- `self.fc1(self.encoder(x))` (lines 77, 165) -/
noncomputable def encode (training : Bool) (a : Net) (x : Batch) : Py (Vecs × Net) := do
  let r ← sequential training a.encoder x
  let v ← flatten r.1
  let e ← linear a.hDim a.d a.fc1 v
  .ok (e, { a with encoder := r.2 })

/-- `self.decoder(self.fc2(s))` (lines 84, 179-181, 187-188) -/
noncomputable def decode (training : Bool) (a : Net) (s : Vecs) : Py (Batch × Net) := do
  let v ← linear a.d a.hDim a.fc2 s
  let x ← unflatten 4 v
  let r ← sequential training a.decoder x
  .ok (r.1, { a with decoder := r.2 })

/-- What a shooting block returns for encoded images: the number of times and the value at (time, sample, coordinate), of shape `(T, N, 1, d)`. -/
abbrev Blk := Vecs → Py (Nat × (Nat → Nat → Nat → ℝ))

/-- A tensor of shape `(n, t, 1, 28, 28)`: the value at (sample, time, row, column). -/
structure Seqs where
  n : Nat
  t : Nat
  val : Nat → Nat → Nat → Nat → ℝ

/-- `out.squeeze().permute(1,0,2).contiguous().view(N*self.T, self.shooting_dim)` (lines 80-82, 169, 186): an output of shape `(T', N, 1, d)`. -/
def rows (T d N T' : Nat) (out : Nat → Nat → Nat → ℝ) : Py Vecs :=
  if Masked.squeezable T' N d = false then .error .runtimeError
  else if N * T' * d ≠ N * T * d then .error .runtimeError
  else .ok ⟨N * T, d, fun r j => out (r % T) (r / T) j⟩

/-- `s.view(N,self.T,1,28,28)` (lines 85, 189) -/
def sequences (N T : Nat) (s : Batch) : Py Seqs :=
  if s.n * s.c * s.h * s.w ≠ N * T * (1 * 28 * 28) then .error .runtimeError
  else .ok ⟨N, T, fun n t y z =>
    let j := ((n * T + t) * 28 + y) * 28 + z
    s.val (j / (s.c * s.h * s.w)) (j / (s.h * s.w) % s.c) (j / s.w % s.h) (j % s.w)⟩

/-- `forward` (lines 73-85), and `forward` with `use_mask=False` (lines 163-169, 184-189). -/
noncomputable def forward (training : Bool) (blk : Blk) (a : Net) (x : Batch) : Py (Seqs × Net) := do
  let e ← encode training a x
  let b ← blk e.1
  let s ← rows a.T a.d x.n b.1 b.2
  let r ← decode training e.2 s
  let q ← sequences x.n a.T r.1
  .ok (q, r.2)

/-- The decoder as a function on lists of latent values (as in `Verif.Masked`); the empty list if it raises an exception. -/
noncomputable def decodeList (training : Bool) (a : Net) (l : List (Nat → ℝ)) : List (Nat → Nat → ℝ) :=
  match decode training a ⟨l.length, a.d, fun n => l.getD n fun _ => 0⟩ with
  | .error _ => []
  | .ok r => (List.range r.1.n).map fun n => r.1.val n 0

end Verif.Autoencoder
