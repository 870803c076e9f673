import Verif.Autoencoder.Model
import Mathlib.Data.Set.Function

/-!
# Notions for the autoencoder
-/

namespace Verif.Autoencoder
open Verif

/-- The number of blocks of eight pixels that cover a length. -/
def eighths (l : Nat) : Nat := (l + 7) / 8

/-- The images of one program: the right number of channels, at least one pixel, and 16 blocks of 8 by 8 pixels needed to cover them. -/
def Fitting (chans : Nat) (x : Batch) : Prop := x.c = chans ∧ eighths x.h * eighths x.w = 16

/-- The same trainable parameters of a batch normalisation (the running statistics may differ). -/
def Norm.Same (a b : Norm) : Prop := a.gain = b.gain ∧ a.offset = b.offset

/-- The same trainable parameters of a network. -/
def Params.Same (θ θ' : Params) : Prop :=
  θ'.e1 = θ.e1 ∧ θ'.e2 = θ.e2 ∧ θ'.e3 = θ.e3 ∧ θ'.f1 = θ.f1 ∧ θ'.f2 = θ.f2 ∧ θ'.d1 = θ.d1 ∧ θ'.d2 = θ.d2 ∧ θ'.d3 = θ.d3 ∧ θ'.d4 = θ.d4 ∧
    Norm.Same θ'.n1 θ.n1 ∧ Norm.Same θ'.n2 θ.n2 ∧ Norm.Same θ'.m1 θ.m1 ∧ Norm.Same θ'.m2 θ.m2 ∧ Norm.Same θ'.m3 θ.m3

/-- No running variance is negative. -/
def Params.Sound (θ : Params) : Prop := ∀ ν ∈ [θ.n1, θ.n2, θ.m1, θ.m2, θ.m3], ∀ c, 0 ≤ ν.var c

/-- A block that gives every sample its own trajectory at `T` times. -/
def Separate (blk : Blk) (T : Nat) (net : (Nat → ℝ) → Nat → Nat → ℝ) : Prop := ∀ v : Vecs, blk v = .ok (T, fun t n j => net (v.val n) t j)

/-- Two batches of images with the same sizes, the second one with the pixels of the first one in the order `σ`. -/
structure Batch.Agree (σ : Nat → Nat) (x x' : Batch) : Prop where
  order : Set.BijOn σ (Set.Iio x.n) (Set.Iio x.n)
  n : x'.n = x.n
  c : x'.c = x.c
  h : x'.h = x.h
  w : x'.w = x.w
  val : ∀ k c y z, k < x.n → c < x.c → y < x.h → z < x.w → x'.val k c y z = x.val (σ k) c y z

/-- Two batches of vectors with the same sizes, the second one with the entries of the first one in the order `σ`. -/
structure Vecs.Agree (σ : Nat → Nat) (v v' : Vecs) : Prop where
  order : Set.BijOn σ (Set.Iio v.n) (Set.Iio v.n)
  n : v'.n = v.n
  d : v'.d = v.d
  val : ∀ k j, k < v.n → j < v.d → v'.val k j = v.val (σ k) j

/-- The same exception, or results in a relation. -/
def Both {α : Type} (R : α → α → Prop) (a b : Py α) : Prop := (∃ e, a = .error e ∧ b = .error e) ∨ ∃ u v, a = .ok u ∧ b = .ok v ∧ R u v

/-- A block whose output for vectors of `d` entries depends only on these entries, with samples in the order `σ` if they are given in this order. -/
def Respects (σ : Nat → Nat) (d : Nat) (blk : Blk) : Prop :=
  ∀ v v' : Vecs, v.d = d → v.Agree σ v' → Both (fun r r' => r'.1 = r.1 ∧ ∀ t n j, t < r.1 → n < v.n → j < d → r'.2 t n j = r.2 t (σ n) j) (blk v) (blk v')

/-- The parameters with other biases in the five convolutions that are followed by a batch normalisation. -/
def Params.withBiases (θ : Params) (b1 b2 b3 b4 b5 : Nat → ℝ) : Params :=
  { θ with e1 := ⟨θ.e1.weight, b1⟩, e2 := ⟨θ.e2.weight, b2⟩, d1 := ⟨θ.d1.weight, b3⟩, d2 := ⟨θ.d2.weight, b4⟩, d3 := ⟨θ.d3.weight, b5⟩ }

end Verif.Autoencoder
