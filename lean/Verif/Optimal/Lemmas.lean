import Verif.Optimal.Variation

/-!
# Shooting trajectories as driven states with an adjoint, and sums of squares
-/

namespace Verif.Optimal
open Set MeasureTheory Verif.Shooting Verif.Converge

variable {ι K P : Type} [Fintype ι] [Fintype K] [Fintype P]

theorem kineticEnergy_half (w : P → Option ℝ) (θ : P → ℝ) : kineticEnergy w θ = halfWeightedSquares (weight w) θ := by
  unfold kineticEnergy halfWeightedSquares
  ring

/-- The parameters of an exact trajectory at time `t`. -/
noncomputable def along (f : Rhs (ι × K) P) (w : P → Option ℝ) (θ0 : ℝ → P → ℝ) (q p : ℝ → ι × K → ℝ) (t : ℝ) : P → ℝ :=
  directParameters f w (θ0 t) (q t) (p t)

theorem continuous_along {f : Rhs (ι × K) P} (ha : AffineInParams f) (hs : SmoothRhs (1 + 1) f) (w : P → Option ℝ) (θ0 : ℝ → P → ℝ) {q p : ℝ → ι × K → ℝ} {S : Set ℝ}
    (hq : ContinuousOn q S) (hp : ContinuousOn p S) (r : P) : ContinuousOn (fun t => along f w θ0 q p t r) S := by
  have e : (fun t => along f w θ0 q p t r) = fun t => (∑ j, p t j * coeff f (q t) j r) / Fintype.card ι / weight w r := by
    funext t
    exact directParameters_eq ha w _ _ _ _
  rw [e]
  refine ((continuousOn_finsetSum _ fun j _ => ContinuousOn.mul (continuousOn_pi.1 hp j) ?_).div_const _).div_const _
  exact (hs.coeff j r).continuous.comp_continuousOn hq

theorem trajectory_driven {f : Rhs (ι × K) P} (ha : AffineInParams f) (hs : SmoothRhs (1 + 1) f) {w : P → Option ℝ} {θ0 : ℝ → P → ℝ} {q p : ℝ → ι × K → ℝ} {a b : ℝ}
    (tr : Trajectory f w θ0 q p a b) : Driven f (along f w θ0 q p) q a b where
  cont r := continuous_along ha hs w θ0 (fun t ht => (hasDerivWithinAt_pi.2 (tr.state t ht)).continuousWithinAt) (fun t ht => (hasDerivWithinAt_pi.2 (tr.costate t ht)).continuousWithinAt) r
  state t ht j := tr.state t ht j

theorem costateRhs_eq [Nonempty ι] {f : Rhs (ι × K) P} (ha : AffineInParams f) (hs : SmoothRhs (1 + 1) f) (w : P → Option ℝ) (hw : ∀ r, weight w r ≠ 0) (θ0 : P → ℝ) (q p : ι × K → ℝ) :
    costateRhs f w θ0 q p = costGrad f (directParameters f w θ0 q p) q p :=
  (C34_costate_gradient ha w hw _ _ _ (fun θ j => hs.differentiable θ j _) (gradient_formula ha hs.differentiable _ _ _)).2

theorem trajectory_adjoint [Nonempty ι] {f : Rhs (ι × K) P} (ha : AffineInParams f) (hs : SmoothRhs (1 + 1) f) {w : P → Option ℝ} (hw : ∀ r, weight w r ≠ 0) {θ0 : ℝ → P → ℝ}
    {q p : ℝ → ι × K → ℝ} {a b : ℝ} (tr : Trajectory f w θ0 q p a b) : Adjoint f (along f w θ0 q p) q p a b := fun t ht => by
  have h := hasDerivWithinAt_pi.2 (tr.costate t ht)
  rw [costateRhs_eq ha hs w hw] at h
  exact h

theorem pairing_along [Nonempty ι] {f : Rhs (ι × K) P} (ha : AffineInParams f) (w : P → Option ℝ) (hw : ∀ r, weight w r ≠ 0) (θ0 : ℝ → P → ℝ) (q p : ℝ → ι × K → ℝ) (t : ℝ) (r : P) :
    ∑ j, p t j * coeff f (q t) j r = Fintype.card ι * (weight w r * along f w θ0 q p t r) := by
  have hN : (Fintype.card ι : ℝ) ≠ 0 := by exact_mod_cast Fintype.card_ne_zero
  have := hw r
  unfold along
  rw [directParameters_eq ha]
  unfold potCoeff
  field_simp

/-! ## Half the weighted sum of squares -/

theorem continuous_half (w : P → ℝ) {θ : ℝ → P → ℝ} {S : Set ℝ} (h : ContinuousOn θ S) : ContinuousOn (fun t => halfWeightedSquares w (θ t)) S :=
  (continuousOn_finsetSum _ fun r _ => continuousOn_const.mul ((continuousOn_pi.1 h r).pow 2)).div_const _

theorem half_expand (w θ θ' : P → ℝ) : ∑ r, (w r * θ r) * (θ' r - θ r) = halfWeightedSquares w θ' - halfWeightedSquares w θ - halfWeightedSquares w (θ' - θ) := by
  unfold halfWeightedSquares
  rw [← sub_div, ← sub_div, ← Finset.sum_sub_distrib, ← Finset.sum_sub_distrib, eq_div_iff (by norm_num), Finset.sum_mul]
  exact Finset.sum_congr rfl fun r _ => by simp only [Pi.sub_apply]; ring

theorem half_nonneg {w : P → ℝ} (hw : ∀ r, 0 ≤ w r) (θ : P → ℝ) : 0 ≤ halfWeightedSquares w θ :=
  div_nonneg (Finset.sum_nonneg fun r _ => mul_nonneg (hw r) (sq_nonneg _)) (by norm_num)

theorem half_sub_le {w : P → ℝ} (hw : ∀ r, 0 ≤ w r) (θ θ' : P → ℝ) : halfWeightedSquares w (θ' - θ) ≤ 2 * halfWeightedSquares w θ' + 2 * halfWeightedSquares w θ := by
  unfold halfWeightedSquares
  rw [← mul_div_assoc, ← mul_div_assoc, ← add_div, div_le_div_iff_of_pos_right (by norm_num), Finset.mul_sum, Finset.mul_sum, ← Finset.sum_add_distrib]
  refine Finset.sum_le_sum fun r _ => ?_
  have h1 := mul_nonneg (hw r) (sq_nonneg (θ' r + θ r))
  simp only [Pi.sub_apply]
  linarith

theorem half_lower {w : P → ℝ} (hw : ∀ r, 0 < w r) : ∃ ω, 0 < ω ∧ ∀ θ, ω * ‖θ‖ ^ 2 ≤ halfWeightedSquares w θ := by
  have hpos : 0 < ∑ r, (w r)⁻¹ + 1 := by
    have : 0 ≤ ∑ r, (w r)⁻¹ := Finset.sum_nonneg fun r _ => (inv_pos.2 (hw r)).le
    linarith
  have hle : ∀ r, (∑ r, (w r)⁻¹ + 1)⁻¹ ≤ w r := fun r => by
    have h1 : (w r)⁻¹ ≤ ∑ r, (w r)⁻¹ := Finset.single_le_sum (fun r _ => (inv_pos.2 (hw r)).le) (Finset.mem_univ r)
    rw [inv_le_comm₀ hpos (hw r)]
    linarith
  refine ⟨(∑ r, (w r)⁻¹ + 1)⁻¹ / 2, by positivity, fun θ => ?_⟩
  have hn := half_nonneg (fun r => (hw r).le) θ
  have hroot : ‖θ‖ ≤ Real.sqrt (halfWeightedSquares w θ / ((∑ r, (w r)⁻¹ + 1)⁻¹ / 2)) := by
    refine (pi_norm_le_iff_of_nonneg (Real.sqrt_nonneg _)).2 fun r => ?_
    refine Real.le_sqrt_of_sq_le ?_
    rw [le_div_iff₀ (by positivity), Real.norm_eq_abs, sq_abs]
    have h1 : w r * θ r ^ 2 / 2 ≤ halfWeightedSquares w θ := by
      unfold halfWeightedSquares
      rw [div_le_div_iff_of_pos_right (by norm_num)]
      exact Finset.single_le_sum (f := fun r => w r * θ r ^ 2) (fun r _ => mul_nonneg (hw r).le (sq_nonneg _)) (Finset.mem_univ r)
    have h2 := mul_le_mul_of_nonneg_right (hle r) (sq_nonneg (θ r))
    linarith
  have h2 := pow_le_pow_left₀ (norm_nonneg _) hroot 2
  rw [Real.sq_sqrt (by positivity), le_div_iff₀ (by positivity)] at h2
  linarith

theorem half_upper {w : P → ℝ} (θ : P → ℝ) : |halfWeightedSquares w θ| ≤ (∑ r, |w r|) * ‖θ‖ ^ 2 := by
  unfold halfWeightedSquares
  rw [abs_div, abs_of_pos (by norm_num : (0 : ℝ) < 2), div_le_iff₀ (by norm_num)]
  have h1 : |∑ r, w r * θ r ^ 2| ≤ (∑ r, |w r|) * ‖θ‖ ^ 2 := by
    rw [Finset.sum_mul]
    refine (Finset.abs_sum_le_sum_abs _ _).trans (Finset.sum_le_sum fun r _ => ?_)
    rw [abs_mul, abs_of_nonneg (sq_nonneg (θ r)), ← sq_abs]
    exact mul_le_mul_of_nonneg_left (pow_le_pow_left₀ (abs_nonneg _) (norm_le_pi_norm θ r) 2) (abs_nonneg _)
  have h2 : 0 ≤ (∑ r, |w r|) * ‖θ‖ ^ 2 := by positivity
  linarith

/-- The estimate of `variation` along an exact trajectory. -/
theorem cost_estimate [Nonempty ι] {f : Rhs (ι × K) P} (ha : AffineInParams f) (hs : SmoothRhs (1 + 1) f) (hg : Growth f) (w : P → Option ℝ) (hw : ∀ r, weight w r ≠ 0)
    {θ0 : ℝ → P → ℝ} {q p : ℝ → ι × K → ℝ} {a b : ℝ} (tr : Trajectory f w θ0 q p a b) (M : ℝ) :
    ∃ C, 0 ≤ C ∧ ∀ s c, a ≤ s → s ≤ c → c ≤ b → ∀ θ' q', Driven f θ' q' s c → q' s = q s → ∫ t in s..c, ‖θ' t - along f w θ0 q p t‖ ^ 2 ≤ M →
      |(∑ j, p c j * (q' c j - q c j)) - Fintype.card ι * (cost (weight w) θ' s c - cost (weight w) (along f w θ0 q p) s c - cost (weight w) (fun t => θ' t - along f w θ0 q p t) s c)| ≤
        C * (c - s) * ∫ t in s..c, ‖θ' t - along f w θ0 q p t‖ ^ 2 := by
  have hd0 := trajectory_driven ha hs tr
  obtain ⟨C, hC, h⟩ := variation ha hs hg hd0 (trajectory_adjoint ha hs hw tr) M
  refine ⟨C, hC, fun s c has hsc hcb θ' q' hd he hM => ?_⟩
  have h2 := (h s c has hsc hcb θ' q' hd he hM).2
  have hθ := (hd0.mono has hcb).continuous_params
  have hsI : s ∈ Icc s c := ⟨le_rfl, hsc⟩
  have hcI : c ∈ Icc s c := ⟨hsc, le_rfl⟩
  have e : ∫ t in s..c, ∑ r, (∑ j, p t j * coeff f (q t) j r) * (θ' t r - along f w θ0 q p t r) =
      Fintype.card ι * (cost (weight w) θ' s c - cost (weight w) (along f w θ0 q p) s c - cost (weight w) (fun t => θ' t - along f w θ0 q p t) s c) := by
    unfold cost
    have i1 : IntervalIntegrable (fun t => halfWeightedSquares (weight w) (θ' t)) volume s c := integrable_Icc (continuous_half _ hd.continuous_params) hsI hcI
    have i2 : IntervalIntegrable (fun t => halfWeightedSquares (weight w) (along f w θ0 q p t)) volume s c := integrable_Icc (continuous_half _ hθ) hsI hcI
    have i3 : IntervalIntegrable (fun t => halfWeightedSquares (weight w) (θ' t - along f w θ0 q p t)) volume s c := integrable_Icc (continuous_half _ (hd.continuous_params.sub hθ)) hsI hcI
    rw [← intervalIntegral.integral_sub i1 i2, ← intervalIntegral.integral_sub (i1.sub i2) i3, ← intervalIntegral.integral_const_mul]
    refine intervalIntegral.integral_congr fun t _ => ?_
    rw [← half_expand, Finset.mul_sum]
    refine Finset.sum_congr rfl fun r _ => ?_
    rw [pairing_along ha w hw θ0 q p t r]
    ring
  rw [e] at h2
  exact h2

end Verif.Optimal
