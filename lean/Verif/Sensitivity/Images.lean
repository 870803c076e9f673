import Verif.Sensitivity.Steps
import Verif.Converge.Images

/-!
# C104 for images: the convolutional classes move samples apart in a controlled way
-/

namespace Verif.Sensitivity
open Verif Verif.Evolution Verif.Models Verif.Shooting Verif.Conv

section
variable {κ C E O I : Type} {h w : Nat} [Fintype C] [Fintype E] [Fintype O] [Fintype I]

/-! ## Convolutions -/

/-- The neighbourhoods of all pixels. -/
def patches (x : T3 κ I (Px h w)) : T3 κ (Px h w) (I × Fin 3 × Fin 3) := fun s z k => at0 (x s k.1) (z.1 + k.2.1 - 1) (z.2 + k.2.2 - 1)

theorem at0_sub (x y : Px h w → ℝ) (a b : ℤ) : at0 x a b - at0 y a b = at0 (fun z => x z - y z) a b := by
  unfold at0
  by_cases hp : (0 ≤ a ∧ a < h) ∧ (0 ≤ b ∧ b < w)
  · rw [dif_pos hp, dif_pos hp, dif_pos hp]
  · rw [dif_neg hp, dif_neg hp, dif_neg hp, sub_zero]

theorem at0_sq (x : Px h w → ℝ) (a b : ℤ) : at0 x a b ^ 2 = at0 (fun z => x z ^ 2) a b := by
  unfold at0
  by_cases hp : (0 ≤ a ∧ a < h) ∧ (0 ≤ b ∧ b < w)
  · rw [dif_pos hp, dif_pos hp]
  · rw [dif_neg hp, dif_neg hp]
    norm_num

/-- Every pixel is moved to at most one pixel. -/
theorem moved_le (x : Px h w → ℝ) (hx : ∀ z, 0 ≤ x z) (u v : Fin 3) : ∑ z : Px h w, at0 x (z.1 + u - 1) (z.2 + v - 1) ≤ ∑ z, x z := by
  simp only [at0_eq]
  rw [Finset.sum_comm]
  refine Finset.sum_le_sum fun z _ => ?_
  by_cases hz : ∃ y : Px h w, (z.1 : ℤ) = y.1 + u - 1 ∧ (z.2 : ℤ) = y.2 + v - 1
  · obtain ⟨y, hy⟩ := hz
    rw [Finset.sum_eq_single y]
    · rw [if_pos hy]
    · intro y' _ hne
      rw [if_neg]
      rintro ⟨h1, h2⟩
      refine hne (Prod.ext (Fin.ext ?_) (Fin.ext ?_)) <;> omega
    · simp
  · rw [Finset.sum_eq_zero fun y _ => if_neg fun hy => hz ⟨y, hy⟩]
    exact hx z

theorem sq_patches (x : T3 κ I (Px h w)) (s s' : κ) : sq (patches x) s s' ≤ 9 * sq x s s' := by
  unfold sq patches
  simp only [at0_sub, at0_sq]
  rw [Finset.sum_comm, Fintype.sum_prod_type, Finset.mul_sum]
  refine Finset.sum_le_sum fun c _ => ?_
  rw [show (9 : ℝ) * ∑ z, (x s c z - x s' c z) ^ 2 = ∑ _k : Fin 3 × Fin 3, ∑ z, (x s c z - x s' c z) ^ 2 by
    rw [Finset.sum_const, Finset.card_univ, Fintype.card_prod, Fintype.card_fin, nsmul_eq_mul]
    norm_num]
  exact Finset.sum_le_sum fun k _ => moved_le (fun z => (x s c z - x s' c z) ^ 2) (fun _ => sq_nonneg _) k.1 k.2

omit [Fintype O] in
theorem conv_patches (θ : Kernel O I → ℝ) (x : T3 κ I (Px h w)) (s : κ) (o : O) (z : Px h w) : conv2d θ x s o z = linear θ (patches x) s z o := by
  unfold conv2d linear patches
  rw [Fintype.sum_prod_type]
  simp only [Fintype.sum_prod_type (α₁ := Fin 3) (α₂ := Fin 3)]

theorem sq_conv (θ : Kernel O I → ℝ) (x : T3 κ I (Px h w)) (s s' : κ) : sq (conv2d θ x) s s' ≤ (∑ r, θ r ^ 2) * (9 * sq x s s') := by
  refine le_trans (le_of_eq ?_) ((sq_linear θ (patches x) s s').trans (mul_le_mul_of_nonneg_left (sq_patches x s s') (par_nonneg θ)))
  unfold sq
  rw [Finset.sum_comm]
  simp only [conv_patches]

/-! ## Group normalisation -/

/-- The inequality behind the Lipschitz constant: with `a ^ 2 = p ^ 2 + ε` and `b ^ 2 = q ^ 2 + ε`. -/
theorem norm_core {ε p q a b : ℝ} (hε : 0 < ε) (hp : 0 ≤ p) (hq : 0 ≤ q) (ha : 0 < a) (hb : 0 < b) (ha2 : a ^ 2 = p ^ 2 + ε) (hb2 : b ^ 2 = q ^ 2 + ε) :
    2 * (p * q) * (a * b * (a * b - ε)) ≤ p ^ 4 * b ^ 2 + q ^ 4 * a ^ 2 := by
  have h1 : p * q + ε ≤ a * b := by
    refine abs_le_of_sq_le_sq' ?_ (by positivity) |>.2
    rw [mul_pow, ha2, hb2]
    nlinarith [mul_nonneg hε.le (sq_nonneg (p - q))]
  have h2 : a * b * (a * b - ε) ≤ p ^ 2 * q ^ 2 + ε * (p ^ 2 + q ^ 2) - ε * (p * q) := by
    have : (a * b) ^ 2 = (p ^ 2 + ε) * (q ^ 2 + ε) := by rw [mul_pow, ha2, hb2]
    nlinarith
  have h3 := mul_le_mul_of_nonneg_left h2 (show 0 ≤ 2 * (p * q) by positivity)
  refine h3.trans ?_
  rw [ha2, hb2]
  nlinarith [mul_nonneg (mul_nonneg (sq_nonneg p) (sq_nonneg q)) (sq_nonneg (p - q)), mul_nonneg (mul_nonneg hε.le (add_nonneg (sq_nonneg p) (sq_nonneg q))) (sq_nonneg (p - q))]

/-- Division by the square root of the mean square plus `ε` is Lipschitz. -/
theorem scale_lip {J : Type} [Fintype J] {ε N : ℝ} (hε : 0 < ε) (hN : 0 < N) (y y' : J → ℝ) :
    ε * ∑ j, (y j / √((∑ i, y i ^ 2) / N + ε) - y' j / √((∑ i, y' i ^ 2) / N + ε)) ^ 2 ≤ ∑ j, (y j - y' j) ^ 2 := by
  set A : ℝ := ∑ i, y i ^ 2 with hA
  set B : ℝ := ∑ i, y' i ^ 2 with hB
  set S : ℝ := ∑ i, y i * y' i with hS
  have hA0 : 0 ≤ A := Finset.sum_nonneg fun _ _ => sq_nonneg _
  have hB0 : 0 ≤ B := Finset.sum_nonneg fun _ _ => sq_nonneg _
  set a := √(A / N + ε) with ha
  set b := √(B / N + ε) with hb
  have ea : a ^ 2 = √(A / N) ^ 2 + ε := by rw [ha, Real.sq_sqrt (by positivity), Real.sq_sqrt (by positivity)]
  have eb : b ^ 2 = √(B / N) ^ 2 + ε := by rw [hb, Real.sq_sqrt (by positivity), Real.sq_sqrt (by positivity)]
  have pa : 0 < a := Real.sqrt_pos.2 (by positivity)
  have pb : 0 < b := Real.sqrt_pos.2 (by positivity)
  set p := √(A / N) with hp
  set q := √(B / N) with hq
  have p0 : 0 ≤ p := Real.sqrt_nonneg _
  have q0 : 0 ≤ q := Real.sqrt_nonneg _
  have eA : A = N * p ^ 2 := by rw [hp, Real.sq_sqrt (by positivity)]; field_simp
  have eB : B = N * q ^ 2 := by rw [hq, Real.sq_sqrt (by positivity)]; field_simp
  have hcs : S ≤ N * (p * q) := by
    have h1 : S ^ 2 ≤ A * B := Finset.sum_mul_sq_le_sq_mul_sq _ _ _
    refine (abs_le_of_sq_le_sq' ?_ (by positivity)).2
    rw [eA, eB] at h1
    nlinarith
  have l : ∑ j, (y j / a - y' j / b) ^ 2 = A / a ^ 2 + B / b ^ 2 - 2 * S / (a * b) := by
    rw [hA, hB, hS, Finset.sum_div, Finset.sum_div, Finset.mul_sum, Finset.sum_div, ← Finset.sum_add_distrib, ← Finset.sum_sub_distrib]
    refine Finset.sum_congr rfl fun j _ => ?_
    field_simp
    ring
  have r : ∑ j, (y j - y' j) ^ 2 = A + B - 2 * S := by
    rw [hA, hB, hS, Finset.mul_sum, ← Finset.sum_add_distrib, ← Finset.sum_sub_distrib]
    exact Finset.sum_congr rfl fun j _ => by ring
  rw [l, r]
  have hab : ε ≤ a * b := by
    refine (abs_le_of_sq_le_sq' ?_ (by positivity)).2
    rw [mul_pow, ea, eb]
    nlinarith [mul_nonneg (sq_nonneg p) (sq_nonneg q), mul_nonneg hε.le (sq_nonneg p), mul_nonneg hε.le (sq_nonneg q)]
  have key := norm_core hε p0 q0 pa pb ea eb
  have h5 : 2 * S * (a * b * (a * b - ε)) ≤ N * (p ^ 4 * b ^ 2 + q ^ 4 * a ^ 2) := by
    have h6 := mul_le_mul_of_nonneg_right hcs (show 0 ≤ 2 * (a * b * (a * b - ε)) from mul_nonneg zero_le_two (mul_nonneg (by positivity) (by linarith)))
    nlinarith [mul_le_mul_of_nonneg_left key hN.le]
  have h7 : A + B - 2 * S - ε * (A / a ^ 2 + B / b ^ 2 - 2 * S / (a * b)) = (N * (p ^ 4 * b ^ 2 + q ^ 4 * a ^ 2) - 2 * S * (a * b * (a * b - ε))) / (a ^ 2 * b ^ 2) := by
    rw [eq_div_iff (by positivity), eA, eB]
    have e1 : ε = a ^ 2 - p ^ 2 := by linarith
    have e2 : q ^ 2 = b ^ 2 - (a ^ 2 - p ^ 2) := by linarith
    field_simp
    rw [show q ^ 4 = (q ^ 2) ^ 2 by ring, e2, e1]
    ring
  have h8 : 0 ≤ (N * (p ^ 4 * b ^ 2 + q ^ 4 * a ^ 2) - 2 * S * (a * b * (a * b - ε))) / (a ^ 2 * b ^ 2) := div_nonneg (by linarith) (by positivity)
  linarith

/-- Subtracting the mean brings no two images apart. -/
theorem centre_le {J : Type} [Fintype J] {N : ℝ} (hN : 0 < N) (hJ : (Fintype.card J : ℝ) = N) (x x' : J → ℝ) : ∑ j, ((x j - (∑ i, x i) / N) - (x' j - (∑ i, x' i) / N)) ^ 2 ≤ ∑ j, (x j - x' j) ^ 2 := by
  have e : ∑ j, ((x j - (∑ i, x i) / N) - (x' j - (∑ i, x' i) / N)) ^ 2 = ∑ j, (x j - x' j) ^ 2 - N * ((∑ i, x i - ∑ i, x' i) / N) ^ 2 := by
    have e1 : ∀ j, ((x j - (∑ i, x i) / N) - (x' j - (∑ i, x' i) / N)) ^ 2 = (x j - x' j) ^ 2 - (x j - x' j) * (2 * ((∑ i, x i - ∑ i, x' i) / N)) + ((∑ i, x i - ∑ i, x' i) / N) ^ 2 := fun j => by ring
    simp only [e1]
    rw [Finset.sum_add_distrib, Finset.sum_sub_distrib, ← Finset.sum_mul, Finset.sum_sub_distrib, Finset.sum_const, Finset.card_univ, nsmul_eq_mul, hJ]
    field_simp
    ring
  rw [e]
  have : 0 ≤ N * ((∑ i, x i - ∑ i, x' i) / N) ^ 2 := by positivity
  linarith

theorem sq_groupNorm {ε : ℝ} (hε : 0 < ε) (x : T3 κ I (Px h w)) (s s' : κ) : ε * sq (groupNorm ε x) s s' ≤ sq x s s' := by
  unfold sq
  rw [Finset.mul_sum]
  refine Finset.sum_le_sum fun c _ => ?_
  by_cases hz : h = 0 ∨ w = 0
  · have : IsEmpty (Px h w) := by
      rcases hz with rfl | rfl
      · exact ⟨fun z => z.1.elim0⟩
      · exact ⟨fun z => z.2.elim0⟩
    simp
  · have hN : (0 : ℝ) < (h : ℝ) * w := by
      have h1 : (0 : ℝ) < h := by exact_mod_cast Nat.pos_of_ne_zero fun e => hz (.inl e)
      have h2 : (0 : ℝ) < w := by exact_mod_cast Nat.pos_of_ne_zero fun e => hz (.inr e)
      positivity
    refine (scale_lip hε hN (fun z => x s c z - (∑ z, x s c z) / ((h : ℝ) * w)) fun z => x s' c z - (∑ z, x s' c z) / ((h : ℝ) * w)).trans ?_
    exact centre_le hN (by rw [Fintype.card_prod, Fintype.card_fin, Fintype.card_fin]; push_cast; rfl) (x s c) (x s' c)

/-! ## The classes -/

theorem dist_joinI (x : T3 κ C (Px h w)) (y : T3 κ E (Px h w)) (s s' : κ) : ∑ k, (joinI x y (s, k) - joinI x y (s', k)) ^ 2 = sq x s s' + sq y s s' := by
  rw [Fintype.sum_sum_type, Fintype.sum_prod_type, Fintype.sum_prod_type]
  rfl

theorem dist_imgs (q : κ × Imgs C E h w → ℝ) (s s' : κ) : ∑ k, (q (s, k) - q (s', k)) ^ 2 = sq (i1 q) s s' + sq (i2 q) s s' := by
  rw [Fintype.sum_sum_type, Fintype.sum_prod_type, Fintype.sum_prod_type]
  rfl

/-- Two convolutions of Lipschitz functions of the two parts of a state. -/
theorem controlled_parts {c A B X Y U V a b : ℝ} (hA : 0 ≤ A) (hB : 0 ≤ B) (hX : 0 ≤ X) (hY : 0 ≤ Y) (hU : U ≤ A * (9 * (a * Y))) (hV : V ≤ B * (9 * (b * X))) (ha : 9 * a ≤ c ^ 2) (hb : 9 * b ≤ c ^ 2) :
    U + V ≤ c ^ 2 * (A + B) * (X + Y) := by
  have h1 := mul_le_mul_of_nonneg_right ha (mul_nonneg hA hY)
  have h2 := mul_le_mul_of_nonneg_right hb (mul_nonneg hB hX)
  have h3 : 0 ≤ c ^ 2 * (A * X) := mul_nonneg (sq_nonneg _) (mul_nonneg hA hX)
  have h4 : 0 ≤ c ^ 2 * (B * Y) := mul_nonneg (sq_nonneg _) (mul_nonneg hB hY)
  nlinarith

theorem sq_conv_map {nl : ℝ → ℝ} {L : ℝ} (hn : ∀ u v, |nl u - nl v| ≤ L * |u - v|) (θ : Kernel O I → ℝ) (x : T3 κ I (Px h w)) (s s' : κ) : sq (conv2d θ (map nl x)) s s' ≤ (∑ r, θ r ^ 2) * (9 * (L ^ 2 * sq x s s')) :=
  (sq_conv θ _ s s').trans (mul_le_mul_of_nonneg_left (mul_le_mul_of_nonneg_left (sq_map hn x s s') (by norm_num)) (par_nonneg θ))

/-- C104: the convolutional classes for images of every size: the constant is that of the nonlinearity times 3, the width of the kernel; for the class with group normalisation the nonlinearity or `1 / sqrt ε`, whichever is larger
(`ε` is `1e-5` in the code). -/
theorem C104_image_classes {nl : ℝ → ℝ} {L ε : ℝ} (hn : ∀ u v, |nl u - nl v| ≤ L * |u - v|) (hL : 1 ≤ L) (hε : 0 < ε) :
    Controlled (3 * L) (fun _ => upDownConv nl : Class (Imgs C E h w) _) ∧ Controlled (3 * L) (fun _ => simpleConv nl : Class (Imgs C C h w) _) ∧
    Controlled (3 * max L (1 / √ε)) (fun _ => convBatch nl ε : Class (Imgs C C h w) _) := by
  have up : ∀ {C E : Type} [Fintype C] [Fintype E], Controlled (3 * L) (fun _ => upDownConv nl : Class (Imgs C E h w) _) := fun {C E} _ _ κ θ x s s' => by
    simp only [upDownConv, dist_joinI, dist_imgs]
    simp only [Fintype.sum_sum_type]
    refine controlled_parts (par_nonneg fun r => θ (.inl r)) (par_nonneg fun r => θ (.inr r)) (sq_nonneg' _ _ _) (sq_nonneg' _ _ _) (sq_conv_map hn _ _ s s') (b := 1) (a := L ^ 2) ?_ (le_of_eq (by ring)) (by nlinarith)
    rw [one_mul]
    exact sq_conv _ _ s s'
  refine ⟨up, up, fun κ θ x s s' => ?_⟩
  simp only [convBatch, dist_joinI, dist_imgs]
  simp only [Fintype.sum_sum_type]
  have hm : 0 ≤ max L (1 / √ε) := le_max_of_le_left (by linarith)
  refine controlled_parts (par_nonneg fun r => θ (.inl r)) (par_nonneg fun r => θ (.inr r)) (sq_nonneg' _ _ _) (sq_nonneg' _ _ _) (sq_conv_map hn _ _ s s') (b := 1 / ε) ?_ ?_ ?_
  · refine (sq_conv _ _ s s').trans (mul_le_mul_of_nonneg_left (mul_le_mul_of_nonneg_left ?_ (by norm_num)) (par_nonneg _))
    rw [one_div, inv_mul_eq_div, le_div_iff₀ hε, mul_comm]
    exact sq_groupNorm hε (i1 x) s s'
  · have := pow_le_pow_left₀ (by linarith) (le_max_left L (1 / √ε)) 2
    nlinarith
  · have := pow_le_pow_left₀ (by positivity) (le_max_right L (1 / √ε)) 2
    rw [div_pow, one_pow, Real.sq_sqrt hε.le] at this
    nlinarith

end

/-! ## Instances -/

/-- `C104_distance` for the class with group normalisation: particles of 15×15 pixels, any batch of images of 28×28 pixels. -/
example (n B : ℕ) (z : Sys2 (Fin (n + 1)) (Fin B) (Imgs (Fin 3) (Fin 3) 15 15) (Imgs (Fin 3) (Fin 3) 28 28)) (ρ) (i i' : Fin B) :
    ∃ y, Converge.Solves (Evolution.field2 (fun _ => convBatch Real.tanh (1 / 100000)) (fun _ => convBatch Real.tanh (1 / 100000)) (Evolution.autodiff (fun _ => convBatch Real.tanh (1 / 100000)) (fun _ => none) ρ)) 0 1 y ∧
      y 0 = z ∧ dist2 (y 1).2.2 i i' ≤ Real.exp (3 * max 1 (1 / √(1 / 100000)) *
        √(2 * kineticEnergy (fun _ => none) (directParameters (convBatch Real.tanh (1 / 100000)) (fun _ => none) 0 (y 0).1 (y 0).2.1) / 1) * |1 - 0|) * dist2 (y 0).2.2 i i' := by
  have hf := fun h w : ℕ => (Converge.C69_image_classes (C := Fin 3) (E := Fin 3) (h := h) (w := w) (Converge.contDiff_tanh (n := 2)) Converge.tame_tanh (ε := 1 / 100000) (by norm_num)).2.2
  have hw : ∀ r : ConvPar (Fin 3) (Fin 3), 1 ≤ weight (fun _ => none) r := fun _ => by norm_num [weight]
  obtain ⟨y, hy, hya, _⟩ := Converge.C69_global_sizes (hf 15 15) (hf 28 28) (fun _ => none) (fun r => zero_lt_one.trans_le (hw r)) ρ zero_le_one z
  exact ⟨y, hy, hya, C104_distance (hf 15 15) (by positivity) (C104_image_classes (C := Fin 3) (E := Fin 3) (L := 1) (lip_pair .tanh) le_rfl (by norm_num)).2.2 _ zero_lt_one hw ρ hy i i' (by norm_num) (by norm_num)⟩

/-- `C104_forward` for a block of the up-down convolutional class with `tanh`, ten particles of 15×15 pixels and any batch of images with 28×28 pixels. -/
example (q p : Fin 10 × Imgs (Fin 1) (Fin 2) 15 15 → ℝ) (B : ℕ) (X : Tensor ℝ) (hX : X.WF) (hs : X.shape = [B, 1, 28, 28]) (ρ) : ∃ h₀ : ℝ, 0 < h₀ ∧ ∀ h, 0 < h → h ≤ h₀ →
    ∃ o t, (Block.forward (Whole.imgCfg ((Whole.autodiffCls (Whole.layImages 1 2 15 15) (fun _ => upDownConv Real.tanh) fun _ => none).withData (Whole.layImages 1 2 28 28) fun _ => upDownConv Real.tanh) false ρ
        (Converge.solver Converge.rk4 (Converge.stepGrid h))) () ⟨some X, none, none, none⟩ (Whole.imgSt q p)).2 = .ok o ∧ o.result = .tensor t ∧
      Differ (Whole.layImages 1 2 28 28) "q1" (fun i i' τ => Real.exp (3 * 1 * √(2 * kineticEnergy (fun _ => none) (directParameters (upDownConv Real.tanh) (fun _ => none) 0 q p) / 1) * (τ - 0)) *
        dist2 (Whole.dataImages X B 1 2 28 28) i i' + 1 / 100) t (.upTo 1) := by
  have hf := fun h w : ℕ => (Converge.C69_image_classes (C := Fin 1) (E := Fin 2) (h := h) (w := w) (Converge.contDiff_tanh (n := 2)) Converge.tame_tanh one_pos).1
  have hw : ∀ r : ConvPar (Fin 1) (Fin 2), 1 ≤ weight (fun _ => none) r := fun _ => by norm_num [weight]
  have hinc : [(0 : ℝ), 1].Pairwise (· < ·) := by simp
  obtain ⟨h₀, h0, key⟩ := C104_forward (H := Unit) (D := Unit) (Θ := Unit) (Rb := Unit) (Whole.layImages_ok 1 2 15 15) (Whole.layImages_ok 1 2 28 28) (hf 15 15) (hf 28 28) (by norm_num)
    (C104_image_classes (C := Fin 1) (E := Fin 2) (L := 1) (ε := 1) (lip_pair .tanh) le_rfl one_pos).1 (fun _ => none) zero_lt_one hw (n := 10) (by norm_num) q p (Whole.dataImages X B 1 2 28 28) Converge.C68_methods.2.2.1
    (a := 0) (b := 1) zero_le_one (ε := 1 / 100) (by norm_num)
  exact ⟨h₀, h0, fun h hh hle => key h hh hle (Converge.stepGrid h) _ _ _ (Whole.img_isBlock _ rfl rfl false ρ _) rfl rfl (Whole.imgSt q p) ((Whole.C67_image_layout 1 2 28 28).2 1 (by norm_num)) (.upTo 1) [1] ⟨rfl, rfl⟩ rfl hinc (by simp)
    (Converge.stepGrid_suits hh 0 [1] hinc) rfl rfl X (Whole.img_initial _ _ _ _ B X hX hs) ()⟩

end Verif.Sensitivity
