import Verif.Conv.Model

/-!
# The transposed convolution and the costate equations one would write by hand
-/

namespace Verif.Conv
open Verif.Shooting Verif.Models

variable {ι C E O I : Type} {h w : Nat}

/-- The transposed convolution (without bias): output pixel `z` gets contributions from the input pixels that see it. -/
def convT [Fintype O] (θ : Kernel O I → ℝ) (p : T3 ι O (Px h w)) : T3 ι I (Px h w) := fun i c z =>
  ∑ o, ∑ u : Fin 3, ∑ v : Fin 3, at0 (p i o) (z.1 - u + 1) (z.2 - v + 1) * θ (o, some (c, u, v))

/-- The mean over the pixels of an image. -/
noncomputable def mean (x : Px h w → ℝ) : ℝ := (∑ z, x z) / ((h : ℝ) * w)

/-- The derivative of `groupNorm` at `x`, which is symmetric, applied to `g`, channel by channel: `(g - mean g - y mean (g y)) / σ` for the normalised
image `y`. -/
noncomputable def groupNormT (ε : ℝ) (x g : T3 ι I (Px h w)) : T3 ι I (Px h w) := fun i c z =>
  (g i c z - mean (g i c) - groupNorm ε x i c z * mean (fun y => g i c y * groupNorm ε x i c y)) /
    Real.sqrt (mean (fun y => (x i c y - mean (x i c)) ^ 2) + ε)

variable [Fintype C] [Fintype E]

/-- `dot p_q1 = - conv2ᵀ p_q2`, `dot p_q2 = - nl'(q2) * conv1ᵀ p_q1`. -/
def upDownConvCostate (dnl : ℝ → ℝ) (θ : ConvPar C E → ℝ) (q p : ι × Imgs C E h w → ℝ) : ι × Imgs C E h w → ℝ :=
  joinI (fun i c z => - convT (fun r => θ (.inr r)) (i2 p) i c z)
    (fun i e z => - dnl (i2 q i e z) * convT (fun r => θ (.inl r)) (i1 p) i e z)

/-- With group normalisation of `q1`: `dot p_q1 = - N'(q1) conv2ᵀ p_q2`, `dot p_q2 = - nl'(q2) * conv1ᵀ p_q1`. -/
noncomputable def convBatchCostate (dnl : ℝ → ℝ) (ε : ℝ) (θ : ConvPar C C → ℝ) (q p : ι × Imgs C C h w → ℝ) : ι × Imgs C C h w → ℝ :=
  joinI (fun i c z => - groupNormT ε (i1 q) (convT (fun r => θ (.inr r)) (i2 p)) i c z)
    (fun i e z => - dnl (i2 q i e z) * convT (fun r => θ (.inl r)) (i1 p) i e z)

variable [Fintype ι]

/-- The kernel that the costate `p` and the input `x` of a convolution give: correlations, averaged over the particles. -/
noncomputable def kernelOf (p : T3 ι O (Px h w)) (x : T3 ι I (Px h w)) : Kernel O I → ℝ
  | (o, some (c, u, v)) => (∑ i, ∑ z : Px h w, p i o z * at0 (x i c) (z.1 + u - 1) (z.2 + v - 1)) / Fintype.card ι
  | (o, none) => (∑ i, ∑ z, p i o z) / Fintype.card ι

/-- An image moved by `a` rows and `b` columns (zero where nothing was). -/
def moved (a b : ℤ) (x : Px h w → ℝ) : Px h w → ℝ := fun z => at0 x (z.1 - a) (z.2 - b)

end Verif.Conv
