import Verif.Converge.Classes
import Verif.Converge.Forward
import Verif.Whole.Images
import Verif.Scale.Props

/-!
# C68, C69, C75 for images: the convolutional classes have smooth right-hand sides of at most linear growth
-/

namespace Verif.Converge
open Set Verif Verif.Shooting Verif.Evolution Verif.Models Verif.Conv Verif.Tensor Verif.Whole

section
variable {ι C E O I J : Type} {h w : Nat} [Fintype ι] [Fintype C] [Fintype E] [Fintype O] [Fintype I] [Fintype J] {n : ℕ}

/-! ## Smoothness -/

theorem smooth_at0 {x : (J → ℝ) → Px h w → ℝ} (hx : ∀ z, ContDiff ℝ n fun y => x y z) (a b : ℤ) : ContDiff ℝ n fun y => at0 (x y) a b := by
  unfold at0
  by_cases hp : (0 ≤ a ∧ a < h) ∧ (0 ≤ b ∧ b < w)
  · simp only [dif_pos hp]
    exact hx _
  · simp only [dif_neg hp]
    exact contDiff_const

omit [Fintype ι] [Fintype O] in
theorem smooth_conv2d {x : (J → ℝ) → T3 ι I (Px h w)} (θ : Kernel O I → ℝ) (hx : ∀ i c z, ContDiff ℝ n fun y => x y i c z) (i : ι) (o : O) (z : Px h w) :
    ContDiff ℝ n fun y => conv2d θ (x y) i o z := by
  unfold conv2d
  exact (ContDiff.sum fun c _ => ContDiff.sum fun u _ => ContDiff.sum fun v _ => (smooth_at0 (fun z => hx i c z) _ _).mul contDiff_const).add contDiff_const

omit [Fintype ι] [Fintype I] in
theorem smooth_groupNorm {ε : ℝ} (hε : 0 < ε) {x : (J → ℝ) → T3 ι I (Px h w)} (hx : ∀ i c z, ContDiff ℝ n fun y => x y i c z) (i : ι) (c : I) (z : Px h w) :
    ContDiff ℝ n fun y => groupNorm ε (x y) i c z := by
  have hm : ContDiff ℝ n fun y => (∑ z, x y i c z) / ((h : ℝ) * w) := (ContDiff.sum fun z _ => hx i c z).div_const _
  have hs : ContDiff ℝ n fun y => (∑ z, (x y i c z - (∑ z, x y i c z) / ((h : ℝ) * w)) ^ 2) / ((h : ℝ) * w) + ε :=
    ((ContDiff.sum fun z _ => ((hx i c z).sub hm).pow 2).div_const _).add contDiff_const
  have hpos : ∀ y, 0 < (∑ z, (x y i c z - (∑ z, x y i c z) / ((h : ℝ) * w)) ^ 2) / ((h : ℝ) * w) + ε := fun y => by
    have : 0 ≤ (∑ z, (x y i c z - (∑ z, x y i c z) / ((h : ℝ) * w)) ^ 2) / ((h : ℝ) * w) :=
      div_nonneg (Finset.sum_nonneg fun _ _ => sq_nonneg _) (by positivity)
    linarith
  exact ((hx i c z).sub hm).div (hs.sqrt fun y => (hpos y).ne') fun y => (Real.sqrt_pos.2 (hpos y)).ne'

variable {nl : ℝ → ℝ}

theorem smooth_upDownConv (hn : ContDiff ℝ n nl) : SmoothRhs n (upDownConv nl : Rhs (ι × Imgs C E h w) _) := by
  rintro θ ⟨i, ⟨c, z⟩ | ⟨c, z⟩⟩
  · exact smooth_conv2d (x := fun y => map nl (i2 y)) (fun r => θ (.inl r)) (fun i c z => smooth_nl hn (i, Sum.inr (c, z))) i c z
  · exact smooth_conv2d (x := fun y => i1 y) (fun r => θ (.inr r)) (fun i c z => smooth_coord (i, Sum.inl (c, z))) i c z

theorem smooth_convBatch {ε : ℝ} (hε : 0 < ε) (hn : ContDiff ℝ n nl) : SmoothRhs n (convBatch nl ε : Rhs (ι × Imgs C C h w) _) := by
  rintro θ ⟨i, ⟨c, z⟩ | ⟨c, z⟩⟩
  · exact smooth_conv2d (x := fun y => map nl (i2 y)) (fun r => θ (.inl r)) (fun i c z => smooth_nl hn (i, Sum.inr (c, z))) i c z
  · exact smooth_conv2d (x := fun y => groupNorm ε (i1 y)) (fun r => θ (.inr r))
      (fun i c z => smooth_groupNorm hε (x := fun y => i1 y) (fun i c z => smooth_coord (i, Sum.inl (c, z))) i c z) i c z

/-! ## Growth -/

theorem growth_at0 {x : (J → ℝ) → Px h w → ℝ} (hx : ∀ z, LinGrowth fun y => x y z) (a b : ℤ) : LinGrowth fun y => at0 (x y) a b := by
  unfold at0
  by_cases hp : (0 ≤ a ∧ a < h) ∧ (0 ≤ b ∧ b < w)
  · simp only [dif_pos hp]
    exact hx _
  · simp only [dif_neg hp]
    exact linGrowth_const 0

omit [Fintype ι] [Fintype O] in
theorem growth_conv2d {x : (J → ℝ) → T3 ι I (Px h w)} (θ : Kernel O I → ℝ) (hx : ∀ i c z, LinGrowth fun y => x y i c z) (i : ι) (o : O) (z : Px h w) :
    LinGrowth fun y => conv2d θ (x y) i o z := by
  unfold conv2d
  exact (LinGrowth.sum _ fun c _ => LinGrowth.sum _ fun u _ => LinGrowth.sum _ fun v _ => (growth_at0 (fun z => hx i c z) _ _).mul_const _).add (linGrowth_const _)

omit [Fintype ι] [Fintype I] in
theorem growth_groupNorm {ε : ℝ} (hε : 0 < ε) {x : (J → ℝ) → T3 ι I (Px h w)} (hx : ∀ i c z, LinGrowth fun y => x y i c z) (i : ι) (c : I) (z : Px h w) :
    LinGrowth fun y => groupNorm ε (x y) i c z := by
  have hm : LinGrowth fun y => (x y i c z - (∑ z, x y i c z) / ((h : ℝ) * w)) * (Real.sqrt ε)⁻¹ :=
    ((hx i c z).sub ((LinGrowth.sum _ fun z _ => hx i c z).mul_const ((h : ℝ) * w)⁻¹)).mul_const _
  obtain ⟨C, h0, hC⟩ := hm
  refine ⟨C, h0, fun y => le_trans ?_ (hC y)⟩
  have hs : 0 ≤ (∑ z, (x y i c z - (∑ z, x y i c z) / ((h : ℝ) * w)) ^ 2) / ((h : ℝ) * w) :=
    div_nonneg (Finset.sum_nonneg fun _ _ => sq_nonneg _) (by positivity)
  have hε' := Real.sqrt_pos.2 hε
  have hle : Real.sqrt ε ≤ Real.sqrt ((∑ z, (x y i c z - (∑ z, x y i c z) / ((h : ℝ) * w)) ^ 2) / ((h : ℝ) * w) + ε) := Real.sqrt_le_sqrt (by linarith)
  unfold groupNorm
  dsimp only
  rw [← div_eq_mul_inv, abs_div, abs_div, abs_of_pos hε', abs_of_nonneg (Real.sqrt_nonneg _)]
  exact div_le_div_of_nonneg_left (abs_nonneg _) hε' hle

theorem growth_upDownConv (hn : Tame nl) : Growth (upDownConv nl : Rhs (ι × Imgs C E h w) _) := by
  rintro θ ⟨i, ⟨c, z⟩ | ⟨c, z⟩⟩
  · exact growth_conv2d (x := fun y => map nl (i2 y)) (fun r => θ (.inl r)) (fun i c z => linGrowth_nl hn (i, Sum.inr (c, z))) i c z
  · exact growth_conv2d (x := fun y => i1 y) (fun r => θ (.inr r)) (fun i c z => linGrowth_coord (i, Sum.inl (c, z))) i c z

theorem growth_convBatch {ε : ℝ} (hε : 0 < ε) (hn : Tame nl) : Growth (convBatch nl ε : Rhs (ι × Imgs C C h w) _) := by
  rintro θ ⟨i, ⟨c, z⟩ | ⟨c, z⟩⟩
  · exact growth_conv2d (x := fun y => map nl (i2 y)) (fun r => θ (.inl r)) (fun i c z => linGrowth_nl hn (i, Sum.inr (c, z))) i c z
  · exact growth_conv2d (x := fun y => groupNorm ε (i1 y)) (fun r => θ (.inr r))
      (fun i c z => growth_groupNorm hε (x := fun y => i1 y) (fun i c z => linGrowth_coord (i, Sum.inl (c, z))) i c z) i c z

/-- C69: the convolutional classes are regular for every nonlinearity as in `C69_nonlinearities`, for images of every size; the class with group normalisation for every
positive `ε` (the code has `1e-5`). -/
theorem C69_image_classes (hs : ContDiff ℝ 2 nl) (hn : Tame nl) {ε : ℝ} (hε : 0 < ε) :
    Regular (fun _ => upDownConv nl : Class (Imgs C E h w) _) ∧ Regular (fun _ => simpleConv nl : Class (Imgs C C h w) _) ∧
    Regular (fun _ => convBatch nl ε : Class (Imgs C C h w) _) :=
  have h2 : ContDiff ℝ (2 : ℕ) nl := hs
  ⟨⟨fun _ _ => linear_upDownConv nl, fun _ _ => smooth_upDownConv h2, fun _ _ => growth_upDownConv hn⟩,
   ⟨fun _ _ => linear_upDownConv nl, fun _ _ => smooth_upDownConv h2, fun _ _ => growth_upDownConv hn⟩,
   ⟨fun _ _ => linear_convBatch nl ε, fun _ _ => smooth_convBatch hε h2, fun _ _ => growth_convBatch hε hn⟩⟩

end

/-- `C69_image_classes` and `C69_global_sizes`: particles of 15×15 and images of 28×28 pixels with 3 channels, group normalisation, `tanh`: exactly one solution up to time 1, for any particles
and samples. -/
example (n B : ℕ) (z : Sys2 (Fin (n + 1)) (Fin B) (Imgs (Fin 3) (Fin 3) 15 15) (Imgs (Fin 3) (Fin 3) 28 28)) (ρ) :
    ∃ y, Solves (Evolution.field2 (fun _ => convBatch Real.tanh (1 / 100000)) (fun _ => convBatch Real.tanh (1 / 100000))
        (Evolution.autodiff (fun _ => convBatch Real.tanh (1 / 100000)) (fun _ => none) ρ)) 0 1 y ∧ y 0 = z ∧
      ∀ y', Solves (Evolution.field2 (fun _ => convBatch Real.tanh (1 / 100000)) (fun _ => convBatch Real.tanh (1 / 100000))
        (Evolution.autodiff (fun _ => convBatch Real.tanh (1 / 100000)) (fun _ => none) ρ)) 0 1 y' → y' 0 = z → ∀ t ∈ Icc (0 : ℝ) 1, y' t = y t :=
  C69_global_sizes (C69_image_classes (C := Fin 3) (E := Fin 3) (contDiff_tanh (n := 2)) tame_tanh (by norm_num)).2.2
    (C69_image_classes (C := Fin 3) (E := Fin 3) (contDiff_tanh (n := 2)) tame_tanh (by norm_num)).2.2 _ (fun _ => by norm_num [weight]) ρ zero_le_one z

/-- `C75_bijective`: every batch of images of this size is the image of exactly one batch of images and second states. -/
example (q p : Fin 10 × Imgs (Fin 3) (Fin 3) 15 15 → ℝ) (x' : Fin 7 × Imgs (Fin 3) (Fin 3) 28 28 → ℝ) (ρ) :
    ∃! x, ∃ y, Solves (Evolution.field2 (fun _ => convBatch Real.tanh (1 / 100000)) (fun _ => convBatch Real.tanh (1 / 100000))
        (Evolution.autodiff (fun _ => convBatch Real.tanh (1 / 100000)) (fun _ => none) ρ)) 0 1 y ∧ y 0 = (q, p, x) ∧ (y 1).2.2 = x' :=
  Scale.C75_bijective (C69_image_classes (C := Fin 3) (E := Fin 3) (contDiff_tanh (n := 2)) tame_tanh (by norm_num)).2.2
    (C69_image_classes (C := Fin 3) (E := Fin 3) (contDiff_tanh (n := 2)) tame_tanh (by norm_num)).2.2 _ (fun _ => by norm_num [weight]) ρ zero_le_one q p x'

/-- `C68_forward_sizes` for a block of the up-down convolutional class with `tanh`, ten particles of 15×15 pixels, the method of Runge and Kutta and steps of size `h`, any batch of images with
28×28 pixels: the output is the exact solution up to a constant times `h`. -/
example (q p : Fin 10 × Imgs (Fin 1) (Fin 2) 15 15 → ℝ) (B : ℕ) (X : Tensor ℝ) (hw : X.WF) (hs : X.shape = [B, 1, 28, 28]) (ρ) :
    ∃ (y : ℝ → Sys2 (Fin 10) (Fin B) (Imgs (Fin 1) (Fin 2) 15 15) (Imgs (Fin 1) (Fin 2) 28 28)) (C h₀ : ℝ), y 0 = (q, p, dataImages X B 1 2 28 28) ∧ 0 < h₀ ∧
    Solves (Evolution.field2 (fun _ => upDownConv Real.tanh) (fun _ => upDownConv Real.tanh) (Evolution.autodiff (fun _ => upDownConv Real.tanh) (fun _ => none) fun _ => (0, 0))) 0 1 y ∧
    ∀ h, 0 < h → h ≤ h₀ → ∃ o t, (Block.forward
        (imgCfg ((autodiffCls (layImages 1 2 15 15) (fun _ => upDownConv Real.tanh) fun _ => none).withData (layImages 1 2 28 28) fun _ => upDownConv Real.tanh) false ρ
          (solver Converge.rk4 (stepGrid h))) () ⟨some X, none, none, none⟩ (imgSt q p)).2 = .ok o ∧ o.result = .tensor t ∧
      ∀ (b : Fin B) (i j : Fin 28), ∃ v, t.get? [b.1, 0, i.1, j.1] = some v ∧ |v - (y 1).2.2 (b, .inl (0, i, j))| ≤ C * h := by
  obtain ⟨y, hy, hya, C, h₀, _, hp, key⟩ := C68_forward_sizes (H := Unit) (D := Unit) (Θ := Unit) (Rb := Unit) (layImages_ok 1 2 15 15) (layImages_ok 1 2 28 28)
    (C69_image_classes (C := Fin 1) (E := Fin 2) (contDiff_tanh (n := 2)) tame_tanh one_pos).1 (C69_image_classes (C := Fin 1) (E := Fin 2) (contDiff_tanh (n := 2)) tame_tanh one_pos).1
    (fun _ => none) (fun _ => by norm_num [weight]) (n := 10) (B := B) (by norm_num) q p (dataImages X B 1 2 28 28) C68_methods.2.2.1 (a := 0) (b := 1) zero_le_one
  refine ⟨y, C, h₀, hya, hp, hy, fun h hh hle => ?_⟩
  have hinc : [(0 : ℝ), 1].Pairwise (· < ·) := by simp
  obtain ⟨o, t, h1, h2, h3⟩ := key h hh hle (stepGrid h) _ _
    (imgCfg ((autodiffCls (layImages 1 2 15 15) (fun _ => upDownConv Real.tanh) fun _ => none).withData (layImages 1 2 28 28) fun _ => upDownConv Real.tanh) false ρ
      (solver Converge.rk4 (stepGrid h)))
    (img_isBlock _ rfl rfl false ρ _) rfl rfl (imgSt q p) ((C67_image_layout 1 2 28 28).2 1 (by norm_num)) (.upTo 1) [1] ⟨rfl, rfl⟩ rfl hinc (by simp) (stepGrid_suits hh 0 [1] hinc) rfl rfl X
    (img_initial _ _ _ _ B X hw hs) ()
  exact ⟨o, t, h1, h2, fun b i j => h3 b (.inl (0, i, j)) rfl⟩

end Verif.Converge
