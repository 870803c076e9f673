import Verif.Conv.Lemmas
import Verif.Evolution.Props

/-!
# C32, C34, C35, C51, C52 for the convolutional classes, and C59

All image sizes, numbers of channels and particles, nonlinearities, states and costates.
-/

set_option linter.unusedSectionVars false

namespace Verif.Conv
open Verif.Shooting Verif.Models Verif.Evolution Verif.Activation Set

variable {ι β C E : Type} {h w : Nat} [Fintype ι] [Fintype C] [Fintype E]

/-- C32: for the convolutional classes and the second-order class the parameters computed by automatic differentiation are the unique minimiser
of the Lagrangian, for all positive weights, states and costates. -/
theorem C32_conv_classes (nl : ℝ → ℝ) (ε : ℝ) {D : Type} [Fintype D] :
    (∀ wt θ0 q p, (∀ r, 0 < weight wt r) →
      UniqueMinimiser (lagrangian (simpleConv nl : Rhs (ι × Imgs C C h w) _) wt q p) (directParameters (simpleConv nl) wt θ0 q p)) ∧
    (∀ wt θ0 q p, (∀ r, 0 < weight wt r) →
      UniqueMinimiser (lagrangian (upDownConv nl : Rhs (ι × Imgs C E h w) _) wt q p) (directParameters (upDownConv nl) wt θ0 q p)) ∧
    (∀ wt θ0 q p, (∀ r, 0 < weight wt r) →
      UniqueMinimiser (lagrangian (convBatch nl ε : Rhs (ι × Imgs C C h w) _) wt q p) (directParameters (convBatch nl ε) wt θ0 q p)) ∧
    (∀ wt θ0 q p, (∀ r, 0 < weight wt r) →
      UniqueMinimiser (lagrangian (secondOrder nl : Rhs (ι × Two C D D) _) wt q p) (directParameters (secondOrder nl) wt θ0 q p)) :=
  ⟨fun wt θ0 q p hw => C32_unique_minimiser (linear_upDownConv nl).affine wt hw θ0 q p,
    fun wt θ0 q p hw => C32_unique_minimiser (linear_upDownConv nl).affine wt hw θ0 q p,
    fun wt θ0 q p hw => C32_unique_minimiser (linear_convBatch nl ε).affine wt hw θ0 q p,
    fun wt θ0 q p hw => C32_unique_minimiser (linear_upDown nl).affine wt hw θ0 q p⟩

example : ∀ r : ConvPar Bool (Fin 3), 0 < weight (fun _ => some (2 : ℝ)) r := fun _ => by norm_num [weight]

/-- C59: the parameters of the (up-down) convolutional class are the correlations of costate and input of the two convolutions, averaged over
the particles and divided by the weights, whatever the random start. -/
theorem C59_parameters (nl : ℝ → ℝ) (q p : ι × Imgs C E h w → ℝ) (wt : ConvPar C E → Option ℝ) (θ0 : ConvPar C E → ℝ) :
    directParameters (upDownConv nl) wt θ0 q p =
      divideByWeight wt (Sum.elim (kernelOf (i1 p) (map nl (i2 q))) (kernelOf (i2 p) (i1 q))) := by
  rw [direct_of_pairing_linear (pairing_upDownConv nl q p) wt θ0]
  congr 1
  funext r
  rcases r with r | r <;> simp [kernelOf_eq]

/-- C59: the parameters of the class with group normalisation. -/
theorem C59_parameters_batch (nl : ℝ → ℝ) (ε : ℝ) (q p : ι × Imgs C C h w → ℝ) (wt : ConvPar C C → Option ℝ) (θ0 : ConvPar C C → ℝ) :
    directParameters (convBatch nl ε) wt θ0 q p =
      divideByWeight wt (Sum.elim (kernelOf (i1 p) (map nl (i2 q))) (kernelOf (i2 p) (groupNorm ε (i1 q)))) := by
  rw [direct_of_pairing_linear (pairing_convBatch nl ε q p) wt θ0]
  congr 1
  funext r
  rcases r with r | r <;> simp [kernelOf_eq]

/-- C59: the costate equation obtained by automatic differentiation consists of the transposed convolutions, with computed and with
given parameters. -/
theorem C59_costate [Nonempty ι] {nl dnl : ℝ → ℝ} {q : ι × Imgs C E h w → ℝ}
    (hn : ∀ i c z, HasDerivAt nl (dnl (i2 q i c z)) (i2 q i c z)) {wt : ConvPar C E → Option ℝ} (hw : ∀ r, weight wt r ≠ 0)
    (θ0 : ConvPar C E → ℝ) (p : ι × Imgs C E h w → ℝ) :
    costateRhs (upDownConv nl) wt θ0 q p = upDownConvCostate dnl (directParameters (upDownConv nl) wt θ0 q p) q p ∧
      ∀ θ, costateRhsFixed (upDownConv nl) wt θ q p = upDownConvCostate dnl θ q p :=
  costate_of_grad (cost := fun θ => upDownConvCostate dnl θ q p) (linear_upDownConv nl).affine hw θ0
    (diff_upDownConv fun i c d => (hn i c d).differentiableAt) (grad_upDownConv hn p)

example (q p : Fin 10 × Imgs (Fin 3) (Fin 6) 28 28 → ℝ) (θ0 : ConvPar (Fin 3) (Fin 6) → ℝ) :
    costateRhs (upDownConv Real.tanh) (fun _ => none) θ0 q p =
      upDownConvCostate dtanh (directParameters (upDownConv Real.tanh) (fun _ => none) θ0 q p) q p :=
  (C59_costate (fun _ _ _ => hasDerivAt_tanh _) (fun _ => by norm_num [weight]) θ0 p).1

/-- C59, the simple class: kernels and costate equation, with computed and with given parameters. -/
theorem C59_simple [Nonempty ι] {nl dnl : ℝ → ℝ} {q : ι × Imgs C C h w → ℝ}
    (hn : ∀ i c z, HasDerivAt nl (dnl (i2 q i c z)) (i2 q i c z)) {wt : ConvPar C C → Option ℝ} (hw : ∀ r, weight wt r ≠ 0)
    (θ0 : ConvPar C C → ℝ) (p : ι × Imgs C C h w → ℝ) :
    directParameters (simpleConv nl) wt θ0 q p =
        divideByWeight wt (Sum.elim (kernelOf (i1 p) (map nl (i2 q))) (kernelOf (i2 p) (i1 q))) ∧
      costateRhs (simpleConv nl) wt θ0 q p = upDownConvCostate dnl (directParameters (simpleConv nl) wt θ0 q p) q p ∧
      ∀ θ, costateRhsFixed (simpleConv nl) wt θ q p = upDownConvCostate dnl θ q p :=
  ⟨C59_parameters nl q p wt θ0, C59_costate hn hw θ0 p⟩

example (q p : Fin 10 × Imgs (Fin 3) (Fin 3) 28 28 → ℝ) (θ0 : ConvPar (Fin 3) (Fin 3) → ℝ) :
    costateRhs (simpleConv Real.tanh) (fun _ => none) θ0 q p =
      upDownConvCostate dtanh (directParameters (simpleConv Real.tanh) (fun _ => none) θ0 q p) q p :=
  (C59_simple (fun _ _ _ => hasDerivAt_tanh _) (fun _ => by norm_num [weight]) θ0 p).2.1

/-- C59, the class with group normalisation: the costate equation, with computed and with given parameters.  The derivative of the normalisation subtracts
the mean and the part in direction of the normalised image, and divides by the standard deviation. -/
theorem C59_costate_batch [Nonempty ι] {nl dnl : ℝ → ℝ} {ε : ℝ} (hε : 0 < ε) {q : ι × Imgs C C h w → ℝ}
    (hn : ∀ i c z, HasDerivAt nl (dnl (i2 q i c z)) (i2 q i c z)) {wt : ConvPar C C → Option ℝ} (hw : ∀ r, weight wt r ≠ 0)
    (θ0 : ConvPar C C → ℝ) (p : ι × Imgs C C h w → ℝ) :
    costateRhs (convBatch nl ε) wt θ0 q p = convBatchCostate dnl ε (directParameters (convBatch nl ε) wt θ0 q p) q p ∧
      ∀ θ, costateRhsFixed (convBatch nl ε) wt θ q p = convBatchCostate dnl ε θ q p :=
  costate_of_grad (cost := fun θ => convBatchCostate dnl ε θ q p) (linear_convBatch nl ε).affine hw θ0
    (diff_convBatch hε fun i c d => (hn i c d).differentiableAt) (grad_convBatch hε hn p)

example (q p : Fin 10 × Imgs (Fin 3) (Fin 3) 28 28 → ℝ) (θ0 : ConvPar (Fin 3) (Fin 3) → ℝ) :
    costateRhs (convBatch Real.tanh (1 / 100000)) (fun _ => none) θ0 q p =
      convBatchCostate dtanh (1 / 100000) (directParameters (convBatch Real.tanh (1 / 100000)) (fun _ => none) θ0 q p) q p :=
  (C59_costate_batch (by norm_num) (fun _ _ _ => hasDerivAt_tanh _) (fun _ => by norm_num [weight]) θ0 p).1

/-- C59: every normalised channel has mean zero and mean square `s / (s + ε)` for the variance `s` of the image, below one; constants added to a channel of a
sample, and other samples and channels, have no influence. -/
theorem C59_normalised {ε : ℝ} (hε : 0 < ε) {I : Type} (x : T3 ι I (Px h w)) (i : ι) (c : I) (hh : 0 < h) (hw : 0 < w) :
    mean (groupNorm ε x i c) = 0 ∧
      mean (fun z => groupNorm ε x i c z ^ 2) = mean (fun z => (x i c z - mean (x i c)) ^ 2) / (mean (fun z => (x i c z - mean (x i c)) ^ 2) + ε) ∧
      mean (fun z => groupNorm ε x i c z ^ 2) < 1 ∧
      ∀ (y : T3 ι I (Px h w)) (a : ℝ), (∀ z, y i c z = x i c z + a) → groupNorm ε y i c = groupNorm ε x i c := by
  have hn : ((h : ℝ) * w) ≠ 0 := by positivity
  set S := mean (fun z => (x i c z - mean (x i c)) ^ 2) with hS
  have hS0 : 0 ≤ S := by
    rw [hS]
    unfold mean
    positivity
  have hsq : Real.sqrt (S + ε) ^ 2 = S + ε := Real.sq_sqrt (by linarith)
  have hg : ∀ z, groupNorm ε x i c z = (x i c z - mean (x i c)) / Real.sqrt (S + ε) := fun z => rfl
  have h2 : mean (fun z => groupNorm ε x i c z ^ 2) = S / (S + ε) := by
    simp only [hg, div_pow, hsq]
    rw [hS]
    unfold mean
    rw [← Finset.sum_div]
    ring
  refine ⟨?_, h2, ?_, ?_⟩
  · have : mean (groupNorm ε x i c) = (∑ z, (x i c z - mean (x i c))) / Real.sqrt (S + ε) / ((h : ℝ) * w) := by
      rw [Finset.sum_div]
      rfl
    rw [this, Finset.sum_sub_distrib, Finset.sum_const]
    simp only [mean, Finset.card_univ, Fintype.card_prod, Fintype.card_fin, nsmul_eq_mul]
    push_cast
    field_simp
    ring
  · rw [h2, div_lt_one (by linarith)]
    linarith
  · intro y a hy
    have hm : mean (y i c) = mean (x i c) + a := by
      unfold mean
      simp only [hy, Finset.sum_add_distrib, Finset.sum_const, Finset.card_univ, Fintype.card_prod, Fintype.card_fin, nsmul_eq_mul]
      push_cast
      field_simp
    have hd : ∀ z, y i c z - mean (y i c) = x i c z - mean (x i c) := fun z => by
      rw [hm, hy]
      ring
    funext z
    have : groupNorm ε y i c z = (y i c z - mean (y i c)) / Real.sqrt (mean (fun z => (y i c z - mean (y i c)) ^ 2) + ε) := rfl
    rw [this, hg]
    simp only [hd]
    rfl

example (x : T3 (Fin 10) (Fin 3) (Px 28 28)) : mean (fun z => groupNorm (1 / 100000) x 0 0 z ^ 2) < 1 :=
  (C59_normalised (by norm_num) x 0 0 (by norm_num) (by norm_num)).2.2.1

/-- C59: the transposed convolution is the adjoint of the convolution without bias. -/
theorem C59_adjoint {O I : Type} [Fintype O] [Fintype I] (θ : Kernel O I → ℝ) (hb : ∀ o, θ (o, none) = 0)
    (p : T3 ι O (Px h w)) (x : T3 ι I (Px h w)) :
    ∑ i, ∑ o, ∑ z, p i o z * conv2d θ x i o z = ∑ i, ∑ c, ∑ z, convT θ p i c z * x i c z := by
  have h1 := pair_conv_core p θ x
  have h2 : conv2d θ x = fun i o px => ∑ c, ∑ u : Fin 3, ∑ v : Fin 3, at0 (x i c) (px.1 + u - 1) (px.2 + v - 1) * θ (o, some (c, u, v)) := by
    funext i o z
    simp [conv2d, hb]
  rw [h2]
  exact h1

example : ∃ θ : Kernel Unit Unit → ℝ, (∀ o, θ (o, none) = 0) ∧ θ ≠ 0 :=
  ⟨fun r => match r with | (_, none) => 0 | (_, some _) => 1, fun _ => rfl, fun h => by
    have := congrFun h ((), some ((), 0, 0))
    norm_num at this⟩

/-- C35, convolutional classes: along every exact trajectory the norm penalty is constant. -/
theorem C35_upDownConv [Nonempty ι] {nl : ℝ → ℝ} (hnl : Differentiable ℝ nl) (wt : ConvPar C E → Option ℝ) (hw : ∀ r, weight wt r ≠ 0)
    {θ0 : ℝ → ConvPar C E → ℝ} {q p : ℝ → ι × Imgs C E h w → ℝ} {a b : ℝ} (tr : Trajectory (upDownConv nl) wt θ0 q p a b) {s : ℝ}
    (hs : s ∈ Icc a b) :
    kineticEnergy wt (directParameters (upDownConv nl) wt (θ0 s) (q s) (p s)) =
      kineticEnergy wt (directParameters (upDownConv nl) wt (θ0 a) (q a) (p a)) :=
  C35_norm_penalty_constant (linear_upDownConv nl) wt hw (fun θ _ k => diff_upDownConv (fun _ _ _ => hnl _) θ k) tr hs

/-- C35 for the simple convolutional class. -/
theorem C35_simpleConv [Nonempty ι] {nl : ℝ → ℝ} (hnl : Differentiable ℝ nl) (wt : ConvPar C C → Option ℝ) (hw : ∀ r, weight wt r ≠ 0)
    {θ0 : ℝ → ConvPar C C → ℝ} {q p : ℝ → ι × Imgs C C h w → ℝ} {a b : ℝ} (tr : Trajectory (simpleConv nl) wt θ0 q p a b) {s : ℝ}
    (hs : s ∈ Icc a b) :
    kineticEnergy wt (directParameters (simpleConv nl) wt (θ0 s) (q s) (p s)) =
      kineticEnergy wt (directParameters (simpleConv nl) wt (θ0 a) (q a) (p a)) :=
  C35_norm_penalty_constant (linear_upDownConv nl) wt hw (fun θ _ k => diff_upDownConv (fun _ _ _ => hnl _) θ k) tr hs

/-- C35 for the class with group normalisation (with a positive `ε`; the code has `1e-5`). -/
theorem C35_convBatch [Nonempty ι] {nl : ℝ → ℝ} (hnl : Differentiable ℝ nl) {ε : ℝ} (hε : 0 < ε) (wt : ConvPar C C → Option ℝ)
    (hw : ∀ r, weight wt r ≠ 0) {θ0 : ℝ → ConvPar C C → ℝ} {q p : ℝ → ι × Imgs C C h w → ℝ} {a b : ℝ}
    (tr : Trajectory (convBatch nl ε) wt θ0 q p a b) {s : ℝ} (hs : s ∈ Icc a b) :
    kineticEnergy wt (directParameters (convBatch nl ε) wt (θ0 s) (q s) (p s)) =
      kineticEnergy wt (directParameters (convBatch nl ε) wt (θ0 a) (q a) (p a)) :=
  C35_norm_penalty_constant (linear_convBatch nl ε) wt hw (fun θ _ k => diff_convBatch hε (fun _ _ _ => hnl _) θ k) tr hs

/-- C51 for the convolutional classes. -/
theorem C51_conv_classes (nl : ℝ → ℝ) (ε : ℝ) (σ : Equiv.Perm ι) :
    (∀ wt ρ ρ', SameUpToOrder (β := β) (K := Imgs C E h w) (field (fun _ => upDownConv nl) (autodiff (fun _ => upDownConv nl) wt ρ))
      (field (fun _ => upDownConv nl) (autodiff (fun _ => upDownConv nl) wt ρ')) σ) ∧
    (∀ wt ρ ρ', SameUpToOrder (β := β) (K := Imgs C C h w) (field (fun _ => simpleConv nl) (autodiff (fun _ => simpleConv nl) wt ρ))
      (field (fun _ => simpleConv nl) (autodiff (fun _ => simpleConv nl) wt ρ')) σ) ∧
    (∀ wt ρ ρ', SameUpToOrder (β := β) (K := Imgs C C h w) (field (fun _ => convBatch nl ε) (autodiff (fun _ => convBatch nl ε) wt ρ))
      (field (fun _ => convBatch nl ε) (autodiff (fun _ => convBatch nl ε) wt ρ')) σ) :=
  ⟨fun wt ρ ρ' => C51_evolution (rowwise_upDownConv nl) (linear_upDownConv nl).affine wt ρ ρ' σ,
    fun wt ρ ρ' => C51_evolution (rowwise_upDownConv nl) (linear_upDownConv nl).affine wt ρ ρ' σ,
    fun wt ρ ρ' => C51_evolution (rowwise_convBatch nl ε) (linear_convBatch nl ε).affine wt ρ ρ' σ⟩

/-- C52 for the convolutional classes: a sample of a batch is evolved as if it were alone, by every explicit fixed-step method; in particular the
normalisation does not mix the samples of a batch. -/
theorem C52_conv_classes (nl : ℝ → ℝ) (ε : ℝ) (b : β) (prog : List Instr) :
    (∀ (m : Mode ι (Imgs C E h w) (ConvPar C E)) q p x,
      (run (field (fun _ => upDownConv nl) m) prog [(q, p, fun k : Unit × _ => x (b, k.2))]).map (fun v => fun k => v.2.2 ((), k)) =
        (run (field (fun _ => upDownConv nl) m) prog [(q, p, x)]).map fun v => fun k => v.2.2 (b, k)) ∧
    (∀ (m : Mode ι (Imgs C C h w) (ConvPar C C)) q p x,
      (run (field (fun _ => simpleConv nl) m) prog [(q, p, fun k : Unit × _ => x (b, k.2))]).map (fun v => fun k => v.2.2 ((), k)) =
        (run (field (fun _ => simpleConv nl) m) prog [(q, p, x)]).map fun v => fun k => v.2.2 (b, k)) ∧
    (∀ (m : Mode ι (Imgs C C h w) (ConvPar C C)) q p x,
      (run (field (fun _ => convBatch nl ε) m) prog [(q, p, fun k : Unit × _ => x (b, k.2))]).map (fun v => fun k => v.2.2 ((), k)) =
        (run (field (fun _ => convBatch nl ε) m) prog [(q, p, x)]).map fun v => fun k => v.2.2 (b, k)) :=
  ⟨fun m q p x => C52_single_sample (rowwise_upDownConv nl) m b prog q p x,
    fun m q p x => C52_single_sample (rowwise_upDownConv nl) m b prog q p x,
    fun m q p x => C52_single_sample (rowwise_convBatch nl ε) m b prog q p x⟩

/-- C59: convolutions commute with moving the images, as long as nothing is pushed over the border: the result at a pixel of
the moved image is the result at the original place. -/
theorem C59_translation {O I : Type} [Fintype I] (θ : Kernel O I → ℝ) (a b : ℤ) (x : T3 ι I (Px h w))
    (hin : ∀ i c r s, at0 (moved a b (x i c)) r s = at0 (x i c) (r - a) (s - b)) (i : ι) (o : O) (y z : Px h w)
    (h1 : (y.1 : ℤ) = z.1 + a) (h2 : (y.2 : ℤ) = z.2 + b) :
    conv2d θ (fun i c => moved a b (x i c)) i o y = conv2d θ x i o z := by
  unfold conv2d
  congr 1
  refine Finset.sum_congr rfl fun c _ => Finset.sum_congr rfl fun u _ => Finset.sum_congr rfl fun v _ => ?_
  rw [hin]
  congr 2 <;> omega

/-- non-vacuous: a single bright pixel in the middle of an image moved by one row -/
example : ∀ r s, at0 (moved (h := 3) (w := 3) 1 0 (fun z => if z = (1, 1) then 1 else 0)) r s =
    at0 (h := 3) (w := 3) (fun z => if z = (1, 1) then 1 else 0) (r - 1) (s - 0) := by
  intro r s
  unfold at0 moved
  by_cases hr : (0 ≤ r ∧ r < (3 : Nat)) ∧ (0 ≤ s ∧ s < (3 : Nat))
  · obtain ⟨⟨hr0, hr1⟩, hs0, hs1⟩ := hr
    interval_cases r <;> interval_cases s <;> simp [at0]
  · rw [dif_neg hr]
    by_cases hr' : (0 ≤ r - 1 ∧ r - 1 < (3 : Nat)) ∧ (0 ≤ s - 0 ∧ s - 0 < (3 : Nat))
    · rw [dif_pos hr']
      have hr3 : r = 3 := by omega
      subst hr3
      simp
    · rw [dif_neg hr']

end Verif.Conv
