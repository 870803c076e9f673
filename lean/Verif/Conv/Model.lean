import Verif.Models.Model

/-!
# The convolutional model classes of `shooting_models.py`

A tensor of size `[particles, channels, h, w]` is a function `ι → C → Px h w → ℝ`, where `Px h w` are the pixels.  `I` and `O` are
channels; `C` the channels of `q1` and `E` those of `q2`.  The kernels have size 3 and the padding is 1: this is the only filter size
with which the sizes fit (`Verif.Shapes`, C58).
-/

namespace Verif.Conv
open Verif.Shooting Verif.Models

/-- Pixels of an image. -/
abbrev Px (h w : Nat) := Fin h × Fin w

/-- Parameters of a convolution with bias: `(o, some (c, u, v))` is the entry of the kernel, `(o, none)` of the bias. -/
abbrev Kernel (O I : Type) := O × Option (I × Fin 3 × Fin 3)

variable {ι C E O I : Type} {h w : Nat}

/-- The value of an image at a pixel, zero outside (`padding_mode='zeros'`). -/
def at0 (x : Px h w → ℝ) (a b : ℤ) : ℝ :=
  if hp : (0 ≤ a ∧ a < h) ∧ (0 ≤ b ∧ b < w) then x (⟨a.toNat, by omega⟩, ⟨b.toNat, by omega⟩) else 0

/-- `F.conv2d(x, weight, bias, stride=1, padding=1)` with a 3×3 kernel (a cross-correlation, as in torch), used by
`SNN_Conv2d.forward` (`overwrite_classes.py:157-167`). -/
def conv2d [Fintype I] (θ : Kernel O I → ℝ) (x : T3 ι I (Px h w)) : T3 ι O (Px h w) := fun i o px =>
  ∑ c, ∑ u : Fin 3, ∑ v : Fin 3, at0 (x i c) (px.1 + u - 1) (px.2 + v - 1) * θ (o, some (c, u, v)) + θ (o, none)

/-- `nn.GroupNorm(c, c, affine=False)` with as many groups as channels (`shooting_models.py:1385`): every channel of every sample minus its
mean, divided by the square root of its (biased) variance plus `ε = 1e-5`. -/
noncomputable def groupNorm (ε : ℝ) (x : T3 ι I (Px h w)) : T3 ι I (Px h w) := fun i c px =>
  let n : ℝ := (h : ℝ) * w
  let m := (∑ z, x i c z) / n
  let s := (∑ z, (x i c z - m) ^ 2) / n
  (x i c px - m) / Real.sqrt (s + ε)

/-! ## States -/

/-- Coordinates of one particle. -/
abbrev Imgs (C E : Type) (h w : Nat) := C × Px h w ⊕ E × Px h w

/-- `s['q1']` (or `c['p_q1']`). -/
def i1 (q : ι × Imgs C E h w → ℝ) : T3 ι C (Px h w) := fun i c z => q (i, .inl (c, z))
/-- `s['q2']` (or `c['p_q2']`). -/
def i2 (q : ι × Imgs C E h w → ℝ) : T3 ι E (Px h w) := fun i c z => q (i, .inr (c, z))

/-- A dictionary with the two tensors. -/
def joinI (x : T3 ι C (Px h w)) (y : T3 ι E (Px h w)) : ι × Imgs C E h w → ℝ
  | (i, .inl (c, z)) => x i c z
  | (i, .inr (c, z)) => y i c z

abbrev ConvPar (C E : Type) := Kernel C E ⊕ Kernel E C

variable [Fintype C] [Fintype E]

/-- `rhs_advect_state` of `AutoShootingIntegrandModelUpDownConv2D` (lines 2146-2156). -/
def upDownConv (nl : ℝ → ℝ) : Rhs (ι × Imgs C E h w) (ConvPar C E) := fun θ q =>
  joinI (conv2d (fun r => θ (.inl r)) (map nl (i2 q))) (conv2d (fun r => θ (.inr r)) (i1 q))

/-- `rhs_advect_state` of `AutoShootingIntegrandModelSimpleConv2D` (lines 1316-1326). -/
def simpleConv (nl : ℝ → ℝ) : Rhs (ι × Imgs C C h w) (ConvPar C C) := fun θ q =>
  joinI (conv2d (fun r => θ (.inl r)) (map nl (i2 q))) (conv2d (fun r => θ (.inr r)) (i1 q))

/-- `rhs_advect_state` of `AutoShootingIntegrandModelConv2DBatch` (lines 1392-1402). -/
noncomputable def convBatch (nl : ℝ → ℝ) (ε : ℝ) : Rhs (ι × Imgs C C h w) (ConvPar C C) := fun θ q =>
  joinI (conv2d (fun r => θ (.inl r)) (map nl (i2 q))) (conv2d (fun r => θ (.inr r)) (groupNorm ε (i1 q)))

/-- `AutoShootingIntegrandModelSecondOrder` (lines 172-182): the equations of the up-down model without inflation. -/
def secondOrder {D : Type} [Fintype D] (nl : ℝ → ℝ) : Rhs (ι × Two C D D) (UpDownPar D D) := upDown nl

end Verif.Conv
