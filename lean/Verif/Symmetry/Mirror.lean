import Verif.Symmetry.RotationProps
import Verif.Conv.Lemmas
import Mathlib.Data.Fin.Rev
import Mathlib.Logic.Equiv.Fin.Basic

/-! # Mirrored and turned images, renamed channels: lemmas for C99 -/

set_option linter.unusedSectionVars false

namespace Verif.Symmetry
open Verif.Shooting Verif.Models Verif.Evolution Verif.Conv

/-! ## Specification -/

/-- Turning an image upside down. -/
def upsideDown (h w : Nat) : Equiv.Perm (Px h w) := Equiv.prodCongr Fin.revPerm (Equiv.refl _)

/-- Exchanging left and right. -/
def leftRight (h w : Nat) : Equiv.Perm (Px h w) := Equiv.prodCongr (Equiv.refl _) Fin.revPerm

/-- Exchanging rows and columns of a square image. -/
def transposed (n : Nat) : Equiv.Perm (Px n n) := Equiv.prodComm _ _

/-- All motions that map an image to itself: compositions of the two reflections and, for square images, of the reflection at the diagonal;
a quarter turn is the composition of a transposition and a reflection. -/
inductive Motion : (h w : Nat) → Equiv.Perm (Px h w) → Prop
  | upsideDown (h w : Nat) : Motion h w (upsideDown h w)
  | leftRight (h w : Nat) : Motion h w (leftRight h w)
  | transposed (n : Nat) : Motion n n (transposed n)
  | comp {h w : Nat} {π σ : Equiv.Perm (Px h w)} (hπ : Motion h w π) (hσ : Motion h w σ) : Motion h w (π.trans σ)

variable {ι β C E O I : Type} {h w : Nat}

/-- The coordinates of one particle (images `q1` and `q2`) with the pixels moved by `π` and the channels renamed by `γ` and `δ`. -/
def moveImages (π : Equiv.Perm (Px h w)) (γ : Equiv.Perm C) (δ : Equiv.Perm E) (y : Imgs C E h w → ℝ) : Imgs C E h w → ℝ
  | .inl (c, z) => y (.inl (γ c, π z))
  | .inr (e, z) => y (.inr (δ e, π z))

/-- The weights of a convolution: one number for the kernel, one for the bias. -/
structure PerKernel (wt : Kernel O I → Option ℝ) (a b : ℝ) : Prop where
  kernel : ∀ o j, weight wt (o, some j) = a
  bias : ∀ o, weight wt (o, none) = b

/-! ## Lemmas -/

/-- Moving the pixels by `π` and the entries of the kernels by `κ` fit together. -/
def Along (π : Equiv.Perm (Px h w)) (κ : Equiv.Perm (Fin 3 × Fin 3)) : Prop :=
  ∀ (x : Px h w → ℝ) (z : Px h w) (u v : Fin 3),
    at0 (fun z => x (π z)) (z.1 + u - 1) (z.2 + v - 1) = at0 x ((π z).1 + (κ (u, v)).1 - 1) ((π z).2 + (κ (u, v)).2 - 1)

theorem at0_pos (x : Px h w → ℝ) {a b : ℤ} {i : Fin h} {j : Fin w} (ha : a = i) (hb : b = j) : at0 x a b = x (i, j) := by
  subst ha hb
  unfold at0
  rw [dif_pos ⟨⟨by omega, by have := i.isLt; omega⟩, by omega, by have := j.isLt; omega⟩]
  congr

theorem at0_neg (x : Px h w → ℝ) {a b : ℤ} (hn : ¬ ((0 ≤ a ∧ a < h) ∧ (0 ≤ b ∧ b < w))) : at0 x a b = 0 := by
  unfold at0
  rw [dif_neg hn]

theorem along_upsideDown (h w : Nat) : Along (upsideDown h w) (upsideDown 3 3) := by
  intro x z u v
  have e1 : (((upsideDown h w z).1 : Nat) : ℤ) = h - 1 - (z.1 : Nat) := by
    have := z.1.isLt
    simp only [upsideDown, Equiv.prodCongr_apply, Prod.map, Fin.revPerm_apply, Fin.val_rev]
    omega
  have e2 : (upsideDown h w z).2 = z.2 := rfl
  have e3 : (((upsideDown 3 3 (u, v)).1 : Nat) : ℤ) = 2 - (u : Nat) := by
    have := u.isLt
    simp only [upsideDown, Equiv.prodCongr_apply, Prod.map, Fin.revPerm_apply, Fin.val_rev]
    omega
  have e4 : (upsideDown 3 3 (u, v)).2 = v := rfl
  rw [e1, e2, e3, e4]
  by_cases hin : (0 ≤ ((z.1 : Nat) : ℤ) + (u : Nat) - 1 ∧ ((z.1 : Nat) : ℤ) + (u : Nat) - 1 < h) ∧
      (0 ≤ ((z.2 : Nat) : ℤ) + (v : Nat) - 1 ∧ ((z.2 : Nat) : ℤ) + (v : Nat) - 1 < w)
  · obtain ⟨⟨h1, h2⟩, h3, h4⟩ := hin
    obtain ⟨a, ha⟩ := Int.eq_ofNat_of_zero_le h1
    obtain ⟨b, hb⟩ := Int.eq_ofNat_of_zero_le h3
    rw [at0_pos (i := ⟨a, by omega⟩) (j := ⟨b, by omega⟩) _ ha hb]
    refine (at0_pos x (i := (⟨a, by omega⟩ : Fin h).rev) (j := ⟨b, by omega⟩) ?_ hb).symm
    rw [Fin.val_rev]
    simp only
    omega
  · rw [at0_neg _ hin, at0_neg _ (by omega)]

theorem along_leftRight (h w : Nat) : Along (leftRight h w) (leftRight 3 3) := by
  intro x z u v
  have e1 : (((leftRight h w z).2 : Nat) : ℤ) = w - 1 - (z.2 : Nat) := by
    have := z.2.isLt
    simp only [leftRight, Equiv.prodCongr_apply, Prod.map, Fin.revPerm_apply, Fin.val_rev]
    omega
  have e2 : (leftRight h w z).1 = z.1 := rfl
  have e3 : (((leftRight 3 3 (u, v)).2 : Nat) : ℤ) = 2 - (v : Nat) := by
    have := v.isLt
    simp only [leftRight, Equiv.prodCongr_apply, Prod.map, Fin.revPerm_apply, Fin.val_rev]
    omega
  have e4 : (leftRight 3 3 (u, v)).1 = u := rfl
  rw [e1, e2, e3, e4]
  by_cases hin : (0 ≤ ((z.1 : Nat) : ℤ) + (u : Nat) - 1 ∧ ((z.1 : Nat) : ℤ) + (u : Nat) - 1 < h) ∧
      (0 ≤ ((z.2 : Nat) : ℤ) + (v : Nat) - 1 ∧ ((z.2 : Nat) : ℤ) + (v : Nat) - 1 < w)
  · obtain ⟨⟨h1, h2⟩, h3, h4⟩ := hin
    obtain ⟨a, ha⟩ := Int.eq_ofNat_of_zero_le h1
    obtain ⟨b, hb⟩ := Int.eq_ofNat_of_zero_le h3
    rw [at0_pos (i := ⟨a, by omega⟩) (j := ⟨b, by omega⟩) _ ha hb]
    refine (at0_pos x (i := ⟨a, by omega⟩) (j := (⟨b, by omega⟩ : Fin w).rev) ha ?_).symm
    rw [Fin.val_rev]
    simp only
    omega
  · rw [at0_neg _ hin, at0_neg _ (by omega)]

theorem along_transposed (n : Nat) : Along (transposed n) (transposed 3) := by
  intro x z u v
  show _ = at0 x (((z.2 : Nat) : ℤ) + (v : Nat) - 1) (((z.1 : Nat) : ℤ) + (u : Nat) - 1)
  by_cases hin : (0 ≤ ((z.1 : Nat) : ℤ) + (u : Nat) - 1 ∧ ((z.1 : Nat) : ℤ) + (u : Nat) - 1 < n) ∧
      (0 ≤ ((z.2 : Nat) : ℤ) + (v : Nat) - 1 ∧ ((z.2 : Nat) : ℤ) + (v : Nat) - 1 < n)
  · obtain ⟨⟨h1, h2⟩, h3, h4⟩ := hin
    obtain ⟨a, ha⟩ := Int.eq_ofNat_of_zero_le h1
    obtain ⟨b, hb⟩ := Int.eq_ofNat_of_zero_le h3
    rw [at0_pos (i := ⟨a, by omega⟩) (j := ⟨b, by omega⟩) _ ha hb]
    exact (at0_pos x (i := ⟨b, by omega⟩) (j := ⟨a, by omega⟩) hb ha).symm
  · rw [at0_neg _ hin, at0_neg _ (by omega)]

theorem Along.comp {π σ : Equiv.Perm (Px h w)} {κ μ : Equiv.Perm (Fin 3 × Fin 3)} (h1 : Along π κ) (h2 : Along σ μ) :
    Along (π.trans σ) (κ.trans μ) := by
  intro x z u v
  have a := h1 (fun z => x (σ z)) z u v
  have b := h2 x (π z) (κ (u, v)).1 (κ (u, v)).2
  exact a.trans b

theorem Motion.along {h w : Nat} {π : Equiv.Perm (Px h w)} (hm : Motion h w π) : ∃ κ, Along π κ := by
  induction hm with
  | upsideDown => exact ⟨_, along_upsideDown _ _⟩
  | leftRight => exact ⟨_, along_leftRight _ _⟩
  | transposed => exact ⟨_, along_transposed _⟩
  | comp _ _ ih1 ih2 =>
    obtain ⟨κ, h1⟩ := ih1
    obtain ⟨μ, h2⟩ := ih2
    exact ⟨_, h1.comp h2⟩

/-- The parameters of a convolution, moved. -/
def kernelPerm (κ : Equiv.Perm (Fin 3 × Fin 3)) (δ : Equiv.Perm O) (γ : Equiv.Perm I) : Equiv.Perm (Kernel O I) :=
  Equiv.prodCongr δ (Equiv.optionCongr (Equiv.prodCongr γ κ))

section
variable [Fintype C] [Fintype E] [Fintype O] [Fintype I]

theorem conv2d_move {π : Equiv.Perm (Px h w)} {κ : Equiv.Perm (Fin 3 × Fin 3)} (hk : Along π κ) (δ : Equiv.Perm O) (γ : Equiv.Perm I)
    (θ : Kernel O I → ℝ) (x : T3 ι I (Px h w)) (i : ι) (o : O) (z : Px h w) :
    conv2d (fun r => θ (kernelPerm κ δ γ r)) (fun i c z => x i (γ c) (π z)) i o z = conv2d θ x i (δ o) (π z) := by
  unfold conv2d
  refine congrArg₂ (· + ·) ?_ rfl
  refine Eq.trans ?_ (Equiv.sum_comp γ fun c => ∑ u : Fin 3, ∑ v : Fin 3,
    at0 (x i c) ((π z).1 + u - 1) ((π z).2 + v - 1) * θ (δ o, some (c, u, v)))
  refine Finset.sum_congr rfl fun c _ => ?_
  have e := Equiv.sum_comp κ fun p : Fin 3 × Fin 3 =>
    at0 (x i (γ c)) ((π z).1 + p.1 - 1) ((π z).2 + p.2 - 1) * θ (δ o, some (γ c, p.1, p.2))
  rw [Fintype.sum_prod_type, Fintype.sum_prod_type] at e
  refine Eq.trans ?_ e
  refine Finset.sum_congr rfl fun u _ => Finset.sum_congr rfl fun v _ => ?_
  rw [hk (x i (γ c)) z u v]
  rfl

theorem groupNorm_move (ε : ℝ) (π : Equiv.Perm (Px h w)) (γ : Equiv.Perm I) (x : T3 ι I (Px h w)) :
    groupNorm ε (fun i c z => x i (γ c) (π z)) = fun i c z => groupNorm ε x i (γ c) (π z) := by
  funext i c z
  unfold groupNorm
  dsimp only
  rw [Equiv.sum_comp π (fun z => x i (γ c) z)]
  rw [Equiv.sum_comp π (fun z => (x i (γ c) z - (∑ z, x i (γ c) z) / ((h : ℝ) * w)) ^ 2)]

/-- A renaming of coordinates as a linear map. -/
def alongPerm {K : Type} (σ : Equiv.Perm K) : (K → ℝ) →ₗ[ℝ] (K → ℝ) where
  toFun y k := y (σ k)
  map_add' _ _ := rfl
  map_smul' _ _ := rfl

theorem orthogonal_alongPerm {K : Type} [Fintype K] (σ : Equiv.Perm K) : Orthogonal (alongPerm σ) :=
  ⟨fun x y => Equiv.sum_comp σ fun k => x k * y k⟩

theorem iso_alongPerm {P : Type} [Fintype P] (τ : Equiv.Perm P) {wt : P → Option ℝ} (hw : ∀ r, weight wt (τ r) = weight wt r) :
    Iso wt (alongPerm τ) := by
  intro θ
  rw [← Equiv.sum_comp τ fun r => weight wt r * θ r ^ 2]
  exact Finset.sum_congr rfl fun r _ => by rw [hw]; rfl

/-- The coordinates of a particle, moved. -/
def imagesPerm (π : Equiv.Perm (Px h w)) (γ : Equiv.Perm C) (δ : Equiv.Perm E) : Equiv.Perm (Imgs C E h w) :=
  Equiv.sumCongr (Equiv.prodCongr γ π) (Equiv.prodCongr δ π)

theorem moveImages_eq (π : Equiv.Perm (Px h w)) (γ : Equiv.Perm C) (δ : Equiv.Perm E) :
    moveImages π γ δ = alongPerm (imagesPerm π γ δ) := by
  funext y k
  rcases k with ⟨c, z⟩ | ⟨e, z⟩ <;> rfl

/-- The parameters of the two convolutions, moved. -/
def convPerm (κ : Equiv.Perm (Fin 3 × Fin 3)) (γ : Equiv.Perm C) (δ : Equiv.Perm E) : Equiv.Perm (ConvPar C E) :=
  Equiv.sumCongr (kernelPerm κ γ δ) (kernelPerm κ δ γ)

theorem weight_convPerm (κ : Equiv.Perm (Fin 3 × Fin 3)) (γ : Equiv.Perm C) (δ : Equiv.Perm E) {wt : ConvPar C E → Option ℝ}
    {a1 b1 a2 b2 : ℝ} (h1 : PerKernel (fun r => wt (.inl r)) a1 b1) (h2 : PerKernel (fun r => wt (.inr r)) a2 b2) (r : ConvPar C E) :
    weight wt (convPerm κ γ δ r) = weight wt r := by
  rcases r with ⟨o, _ | j⟩ | ⟨o, _ | j⟩
  · exact (h1.bias (γ o)).trans (h1.bias o).symm
  · exact (h1.kernel (γ o) _).trans (h1.kernel o _).symm
  · exact (h2.bias (δ o)).trans (h2.bias o).symm
  · exact (h2.kernel (δ o) _).trans (h2.kernel o _).symm

theorem symmetry_upDownConv (nl : ℝ → ℝ) {π : Equiv.Perm (Px h w)} {κ : Equiv.Perm (Fin 3 × Fin 3)} (hk : Along π κ) (γ : Equiv.Perm C)
    (δ : Equiv.Perm E) {wt : ConvPar C E → Option ℝ} {a1 b1 a2 b2 : ℝ} (h1 : PerKernel (fun r => wt (.inl r)) a1 b1)
    (h2 : PerKernel (fun r => wt (.inr r)) a2 b2) :
    IsSymmetry (K := Imgs C E h w) (fun _ => upDownConv nl) wt (alongPerm (imagesPerm π γ δ)) (alongPerm (convPerm κ γ δ)) := by
  refine ⟨orthogonal_alongPerm _, iso_alongPerm _ (weight_convPerm κ γ δ h1 h2), fun θ y => ?_⟩
  funext k
  rcases k with ⟨c, z⟩ | ⟨e, z⟩
  · exact conv2d_move hk γ δ (fun r => θ (.inl r)) (map nl (i2 fun m : Unit × _ => y m.2)) () c z
  · exact conv2d_move hk δ γ (fun r => θ (.inr r)) (i1 fun m : Unit × _ => y m.2) () e z

theorem symmetry_convBatch (nl : ℝ → ℝ) (ε : ℝ) {π : Equiv.Perm (Px h w)} {κ : Equiv.Perm (Fin 3 × Fin 3)} (hk : Along π κ)
    (γ δ : Equiv.Perm C) {wt : ConvPar C C → Option ℝ} {a1 b1 a2 b2 : ℝ} (h1 : PerKernel (fun r => wt (.inl r)) a1 b1)
    (h2 : PerKernel (fun r => wt (.inr r)) a2 b2) :
    IsSymmetry (K := Imgs C C h w) (fun _ => convBatch nl ε) wt (alongPerm (imagesPerm π γ δ)) (alongPerm (convPerm κ γ δ)) := by
  refine ⟨orthogonal_alongPerm _, iso_alongPerm _ (weight_convPerm κ γ δ h1 h2), fun θ y => ?_⟩
  funext k
  rcases k with ⟨c, z⟩ | ⟨e, z⟩
  · exact conv2d_move hk γ δ (fun r => θ (.inl r)) (map nl (i2 fun m : Unit × _ => y m.2)) () c z
  · have := conv2d_move hk δ γ (fun r => θ (.inr r)) (groupNorm ε (i1 fun m : Unit × _ => y m.2)) () e z
    rw [← groupNorm_move] at this
    exact this

end

end Verif.Symmetry
