import Verif.Converge.Bounded

/-!
# Estimates for right-hand sides that are affine in the parameters, on bounded sets of states
-/

namespace Verif.Optimal
open Set Metric Verif.Shooting Verif.Converge

section
variable {J : Type} [Fintype J]

/-- A twice continuously differentiable function on a ball: bounded, Lipschitz, and quadratically close to its linearisation. -/
def Close (C R : ℝ) (g : (J → ℝ) → ℝ) : Prop :=
  ∀ x y, ‖x‖ ≤ R → ‖y‖ ≤ R → |g x| ≤ C ∧ |g y - g x| ≤ C * ‖y - x‖ ∧ |g y - g x - ∑ k, autograd g x k * (y k - x k)| ≤ C * ‖y - x‖ ^ 2

theorem Close.mono {C C' R : ℝ} {g : (J → ℝ) → ℝ} (h : Close C R g) (hC : C ≤ C') : Close C' R g := fun x y hx hy =>
  ⟨(h x y hx hy).1.trans hC, (h x y hx hy).2.1.trans (mul_le_mul_of_nonneg_right hC (norm_nonneg _)), (h x y hx hy).2.2.trans (mul_le_mul_of_nonneg_right hC (sq_nonneg _))⟩

theorem exists_close {g : (J → ℝ) → ℝ} (hg : ContDiff ℝ (1 + 1) g) (R : ℝ) : ∃ C, 0 ≤ C ∧ Close C R g := by
  have hd : Differentiable ℝ g := hg.differentiable (by norm_num)
  have hK : IsCompact (closedBall (0 : J → ℝ) R) := isCompact_closedBall _ _
  have h1 : ContDiff ℝ 1 (fderiv ℝ g) := hg.fderiv_right le_rfl
  obtain ⟨C0, hC0⟩ := hK.exists_bound_of_continuousOn hg.continuous.continuousOn
  obtain ⟨C1, hC1⟩ := hK.exists_bound_of_continuousOn h1.continuous.continuousOn
  obtain ⟨L, hL⟩ := (h1.locallyLipschitz.locallyLipschitzOn (s := closedBall (0 : J → ℝ) R)).exists_lipschitzOnWith_of_compact hK
  have e0 : C0 ≤ max C0 0 + max C1 0 + L := by have := le_max_left C0 0; have := le_max_right C1 0; have := L.coe_nonneg; linarith
  have e1 : C1 ≤ max C0 0 + max C1 0 + L := by have := le_max_left C1 0; have := le_max_right C0 0; have := L.coe_nonneg; linarith
  have e2 : (L : ℝ) ≤ max C0 0 + max C1 0 + L := by have := le_max_right C1 0; have := le_max_right C0 0; linarith
  refine ⟨max C0 0 + max C1 0 + L, by have := le_max_right C1 0; have := le_max_right C0 0; have := L.coe_nonneg; positivity, fun x y hx hy => ⟨?_, ?_, ?_⟩⟩
  · exact (hC0 x (by simpa using hx)).trans e0
  · refine ((convex_closedBall (0 : J → ℝ) R).norm_image_sub_le_of_norm_fderiv_le (𝕜 := ℝ) (fun z _ => hd z) hC1 (by simpa using hx) (by simpa using hy)).trans ?_
    exact mul_le_mul_of_nonneg_right e1 (norm_nonneg _)
  · have hx' : x ∈ closedBall (0 : J → ℝ) R := by simpa using hx
    have hy' : y ∈ closedBall (0 : J → ℝ) R := by simpa using hy
    have hseg : segment ℝ x y ⊆ closedBall (0 : J → ℝ) R := (convex_closedBall _ _).segment_subset hx' hy'
    have hb : ∀ z ∈ segment ℝ x y, ‖fderiv ℝ g z - fderiv ℝ g x‖ ≤ L * ‖y - x‖ := by
      intro z hz
      have h := hL.dist_le_mul z (hseg hz) x hx'
      rw [dist_eq_norm, dist_eq_norm] at h
      refine h.trans (mul_le_mul_of_nonneg_left ?_ L.coe_nonneg)
      obtain ⟨u, v, hu, hv, huv, rfl⟩ := hz
      have : u • x + v • y - x = v • (y - x) := by
        rw [← eq_sub_iff_add_eq] at huv
        subst huv
        module
      rw [this, norm_smul, Real.norm_eq_abs, abs_of_nonneg hv]
      exact mul_le_of_le_one_left (norm_nonneg _) (by linarith)
    have h := (convex_segment x y).norm_image_sub_le_of_norm_fderiv_le' (𝕜 := ℝ) (fun z _ => hd z) hb (left_mem_segment ℝ x y) (right_mem_segment ℝ x y)
    have hf := (hasGrad_of_differentiableAt (hd x)).fderiv
    rw [hf, grad_apply] at h
    refine le_trans h ?_
    rw [mul_assoc, ← pow_two]
    exact mul_le_mul_of_nonneg_right e2 (sq_nonneg _)

end

variable {ι K P : Type} [Fintype ι] [Fintype K] [Fintype P]

/-- One constant for all components and coefficients. -/
theorem exists_bounds_rhs {f : Rhs (ι × K) P} (hs : SmoothRhs (1 + 1) f) (R : ℝ) :
    ∃ C, 0 ≤ C ∧ (∀ j, Close C R fun q => f 0 q j) ∧ ∀ j r, Close C R fun q => coeff f q j r := by
  choose C0 h00 h0 using fun j => exists_close (hs 0 j) R
  choose C1 h10 h1 using fun j r => exists_close (hs.coeff j r) R
  have hn : ∀ j, 0 ≤ C0 j + ∑ r, C1 j r := fun j => add_nonneg (h00 j) (Finset.sum_nonneg fun r _ => h10 j r)
  have hle : ∀ j, C0 j + ∑ r, C1 j r ≤ ∑ j, (C0 j + ∑ r, C1 j r) := fun j => Finset.single_le_sum (fun j _ => hn j) (Finset.mem_univ j)
  refine ⟨∑ j, (C0 j + ∑ r, C1 j r), Finset.sum_nonneg fun j _ => hn j, fun j => (h0 j).mono ?_, fun j r => (h1 j r).mono ?_⟩
  · have := hle j
    have := Finset.sum_nonneg fun r (_ : r ∈ Finset.univ) => h10 j r
    linarith
  · have := hle j
    have := h00 j
    have := Finset.single_le_sum (fun r _ => h10 j r) (Finset.mem_univ r)
    linarith

theorem sum_mul_le (g θ : P → ℝ) {B : ℝ} (hB : ∀ r, |g r| ≤ B) : |∑ r, g r * θ r| ≤ Fintype.card P * (B * ‖θ‖) := by
  refine (Finset.abs_sum_le_sum_abs _ _).trans ?_
  have : ∀ r ∈ Finset.univ, |g r * θ r| ≤ B * ‖θ‖ := fun r _ => by
    rw [abs_mul]
    exact mul_le_mul (hB r) (norm_le_pi_norm θ r) (abs_nonneg _) ((abs_nonneg _).trans (hB r))
  refine (Finset.sum_le_sum this).trans (le_of_eq ?_)
  simp

/-- Growth in parameters and state together. -/
theorem growth_both {f : Rhs (ι × K) P} (ha : AffineInParams f) (hg : Growth f) : ∃ G, 0 ≤ G ∧ ∀ θ q, ‖f θ q‖ ≤ G * (1 + ‖θ‖) * ‖q‖ + G * (1 + ‖θ‖) := by
  have hc : ∀ j r, LinGrowth fun q => coeff f q j r := fun j r => (hg _ j).sub (hg 0 j)
  choose C0 h00 h0 using hg 0
  choose C1 h01 h1 using hc
  have hn : ∀ j, 0 ≤ C0 j + ∑ r, C1 j r := fun j => add_nonneg (h00 j) (Finset.sum_nonneg fun r _ => h01 j r)
  refine ⟨∑ j, (C0 j + ∑ r, C1 j r), Finset.sum_nonneg fun j _ => hn j, fun θ q => ?_⟩
  have hG : 0 ≤ ∑ j, (C0 j + ∑ r, C1 j r) := Finset.sum_nonneg fun j _ => hn j
  have hq := norm_nonneg q
  have hθ := norm_nonneg θ
  refine (pi_norm_le_iff_of_nonneg (by positivity)).2 fun j => ?_
  have hle : C0 j + ∑ r, C1 j r ≤ ∑ j, (C0 j + ∑ r, C1 j r) := Finset.single_le_sum (fun j _ => hn j) (Finset.mem_univ j)
  have hS := Finset.sum_nonneg fun r (_ : r ∈ Finset.univ) => h01 j r
  rw [Real.norm_eq_abs, affine_coeff ha θ q j]
  have s : |∑ r, coeff f q j r * θ r| ≤ (∑ r, C1 j r) * (‖θ‖ * (‖q‖ + 1)) := by
    refine (Finset.abs_sum_le_sum_abs _ _).trans ?_
    rw [Finset.sum_mul]
    refine Finset.sum_le_sum fun r _ => ?_
    rw [abs_mul]
    calc |coeff f q j r| * |θ r| ≤ (C1 j r * ‖q‖ + C1 j r) * ‖θ‖ := mul_le_mul (h1 j r q) (norm_le_pi_norm θ r) (abs_nonneg _) (by have := h01 j r; positivity)
      _ = _ := by ring
  refine (abs_add_le _ _).trans ?_
  have b0 := h0 j q
  have hjj := h00 j
  have m1 : (C0 j + ∑ r, C1 j r) * ((1 + ‖θ‖) * (‖q‖ + 1)) ≤ (∑ j, (C0 j + ∑ r, C1 j r)) * ((1 + ‖θ‖) * (‖q‖ + 1)) := mul_le_mul_of_nonneg_right hle (by positivity)
  have m2 : 0 ≤ C0 j * (‖θ‖ * (‖q‖ + 1)) := by positivity
  have m3 : 0 ≤ (∑ r, C1 j r) * (‖q‖ + 1) := by positivity
  nlinarith

section
variable {f : Rhs (ι × K) P} (ha : AffineInParams f) {C R : ℝ} (hC : 0 ≤ C) (h0 : ∀ j, Close C R fun q => f 0 q j) (h1 : ∀ j r, Close C R fun q => coeff f q j r)
include ha hC h0 h1

/-- How much faster another state with other parameters moves. -/
theorem speed_difference (θ θ' : P → ℝ) {x y : ι × K → ℝ} (hx : ‖x‖ ≤ R) (hy : ‖y‖ ≤ R) :
    ‖f θ' y - f θ x‖ ≤ C * (1 + Fintype.card P * ‖θ‖) * ‖y - x‖ + Fintype.card P * C * ‖θ' - θ‖ := by
  refine (pi_norm_le_iff_of_nonneg (by positivity)).2 fun j => ?_
  have e : (f θ' y - f θ x) j = (f 0 y j - f 0 x j) + ∑ r, (coeff f y j r - coeff f x j r) * θ r + ∑ r, coeff f y j r * (θ' - θ) r := by
    simp only [Pi.sub_apply]
    rw [affine_coeff ha θ' y j, affine_coeff ha θ x j]
    simp only [sub_mul, mul_sub, Finset.sum_sub_distrib]
    ring
  rw [e, Real.norm_eq_abs]
  refine (abs_add_three _ _ _).trans ?_
  have b1 := (h0 j x y hx hy).2.1
  have b2 := sum_mul_le (fun r => coeff f y j r - coeff f x j r) θ fun r => (h1 j r x y hx hy).2.1
  have b3 := sum_mul_le (fun r => coeff f y j r) (θ' - θ) fun r => (h1 j r y y hy hy).1
  calc _ ≤ C * ‖y - x‖ + Fintype.card P * (C * ‖y - x‖ * ‖θ‖) + Fintype.card P * (C * ‖θ' - θ‖) := add_le_add (add_le_add b1 b2) b3
    _ = _ := by ring

omit hC in
/-- The pairing of a costate with the difference of the speeds, up to second order. -/
theorem pairing_difference (θ θ' : P → ℝ) {x y : ι × K → ℝ} (p : ι × K → ℝ) (hx : ‖x‖ ≤ R) (hy : ‖y‖ ≤ R) :
    |(∑ j, p j * (f θ' y j - f θ x j)) + (∑ k, costGrad f θ x p k * (y k - x k)) - ∑ r, (∑ j, p j * coeff f x j r) * (θ' r - θ r)| ≤
      Fintype.card (ι × K) * ‖p‖ * C * ((1 + Fintype.card P * ‖θ‖) * ‖y - x‖ ^ 2 + Fintype.card P * ‖θ' - θ‖ * ‖y - x‖) := by
  have e : (∑ j, p j * (f θ' y j - f θ x j)) + (∑ k, costGrad f θ x p k * (y k - x k)) - ∑ r, (∑ j, p j * coeff f x j r) * (θ' r - θ r) =
      ∑ j, ((f 0 y j - f 0 x j - ∑ k, autograd (fun q => f 0 q j) x k * (y k - x k)) +
        ∑ r, (coeff f y j r - coeff f x j r - ∑ k, autograd (fun q => coeff f q j r) x k * (y k - x k)) * θ r +
        ∑ r, (coeff f y j r - coeff f x j r) * (θ' - θ) r) * p j := by
    have c1 : ∑ k, costGrad f θ x p k * (y k - x k) = - ∑ j, p j * ((∑ k, autograd (fun q => f 0 q j) x k * (y k - x k)) +
        ∑ r, (∑ k, autograd (fun q => coeff f q j r) x k * (y k - x k)) * θ r) := by
      unfold costGrad
      simp only [neg_mul, Finset.sum_neg_distrib, Finset.sum_mul]
      rw [Finset.sum_comm]
      congr 1
      refine Finset.sum_congr rfl fun j _ => ?_
      simp only [mul_add, add_mul, Finset.sum_add_distrib, Finset.mul_sum, Finset.sum_mul]
      congr 1
      · exact Finset.sum_congr rfl fun k _ => by ring
      · rw [Finset.sum_comm]
        exact Finset.sum_congr rfl fun k _ => Finset.sum_congr rfl fun r _ => by ring
    have c2 : ∑ r, (∑ j, p j * coeff f x j r) * (θ' r - θ r) = ∑ j, p j * ∑ r, coeff f x j r * (θ' r - θ r) := by
      simp only [Finset.sum_mul, Finset.mul_sum]
      rw [Finset.sum_comm]
      exact Finset.sum_congr rfl fun j _ => Finset.sum_congr rfl fun r _ => by ring
    rw [c1, c2, ← sub_eq_add_neg, ← Finset.sum_sub_distrib, ← Finset.sum_sub_distrib]
    refine Finset.sum_congr rfl fun j _ => ?_
    rw [affine_coeff ha θ' y j, affine_coeff ha θ x j]
    simp only [Pi.sub_apply, sub_mul, mul_sub, Finset.sum_sub_distrib]
    ring
  rw [e]
  refine (sum_mul_le _ p (B := C * ((1 + Fintype.card P * ‖θ‖) * ‖y - x‖ ^ 2 + Fintype.card P * ‖θ' - θ‖ * ‖y - x‖)) fun j => ?_).trans (le_of_eq (by ring))
  refine (abs_add_three _ _ _).trans ?_
  have b1 := (h0 j x y hx hy).2.2
  have b2 := sum_mul_le (fun r => coeff f y j r - coeff f x j r - ∑ k, autograd (fun q => coeff f q j r) x k * (y k - x k)) θ fun r => (h1 j r x y hx hy).2.2
  have b3 := sum_mul_le (fun r => coeff f y j r - coeff f x j r) (θ' - θ) fun r => (h1 j r x y hx hy).2.1
  calc _ ≤ C * ‖y - x‖ ^ 2 + Fintype.card P * (C * ‖y - x‖ ^ 2 * ‖θ‖) + Fintype.card P * (C * ‖y - x‖ * ‖θ' - θ‖) := add_le_add (add_le_add b1 b2) b3
    _ = _ := by ring

end

end Verif.Optimal
