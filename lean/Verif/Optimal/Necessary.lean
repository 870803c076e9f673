import Verif.Optimal.Exist
import Verif.Optimal.Props

/-!
# C82: optimal time-dependent parameters are those of a shooting trajectory
-/

namespace Verif.Optimal
open Set MeasureTheory Verif.Shooting Verif.Converge

variable {ι K P : Type} [Fintype ι] [Fintype K] [Fintype P]

/-- C82: given parameters move the particles in one way only. -/
theorem C82_driven_unique {f : Rhs (ι × K) P} (ha : AffineInParams f) (hs : SmoothRhs 2 f) (hg : Growth f) {θ : ℝ → P → ℝ} {q q' : ℝ → ι × K → ℝ} {a b : ℝ} (hd : Driven f θ q a b)
    (hd' : Driven f θ q' a b) (he : q' a = q a) : ∀ t ∈ Icc a b, q' t = q t := by
  intro t ht
  obtain ⟨p, hp, -⟩ := exists_adjoint hs (ht.1.trans ht.2) hd 0
  obtain ⟨C, -, h⟩ := variation ha hs hg hd hp 0
  have := (h a t le_rfl ht.1 ht.2 θ q' (hd'.mono le_rfl ht.2) he (by simp)).1
  rw [← sub_eq_zero, ← norm_le_zero_iff]
  simpa using this

theorem HasGrad.small {J : Type} [Fintype J] {Φ : (J → ℝ) → ℝ} {g x : J → ℝ} (h : HasGrad Φ g x) {η : ℝ} (hη : 0 < η) :
    ∃ δ, 0 < δ ∧ ∀ y, ‖y - x‖ ≤ δ → |Φ y - Φ x - ∑ j, g j * (y j - x j)| ≤ η * ‖y - x‖ := by
  have h1 := (hasFDerivAt_iff_isLittleO.1 h).def hη
  rw [Metric.eventually_nhds_iff] at h1
  obtain ⟨δ, hδ, h2⟩ := h1
  refine ⟨δ / 2, by positivity, fun y hy => ?_⟩
  have h3 := h2 (y := y) (by rw [dist_eq_norm]; linarith)
  rw [grad_apply] at h3
  exact h3

/-- How the objective changes when the parameters move by `- ε` times `G`, where `G` is the gradient in the parameters of the Lagrangian. -/
theorem descent [Nonempty ι] {f : Rhs (ι × K) P} (ha : AffineInParams f) (hs : SmoothRhs 2 f) (hg : Growth f) (w : P → Option ℝ) {Φ : (ι × K → ℝ) → ℝ} {θ : ℝ → P → ℝ}
    {q p : ℝ → ι × K → ℝ} {a b : ℝ} (hab : a ≤ b) (hd : Driven f θ q a b) (hp : Adjoint f θ q p a b) {g : ι × K → ℝ} (hΦ : HasGrad Φ g (q b)) (hpb : ∀ j, p b j = - (Fintype.card ι * g j)) :
    ∃ A B, 0 ≤ A ∧ 0 ≤ B ∧ ∀ η, 0 < η → ∃ ε0, 0 < ε0 ∧ ∀ ε, 0 < ε → ε ≤ ε0 → ∃ θ' q', Driven f θ' q' a b ∧ q' a = q a ∧
      cost (weight w) θ' a b + Φ (q' b) ≤ cost (weight w) θ a b + Φ (q b) - ε * (∫ t in a..b, ∑ r, (weight w r * θ t r - potCoeff f (q t) (p t) r) ^ 2) + A * ε ^ 2 + η * (B * ε) := by
  have hs' : SmoothRhs (1 + 1) f := hs
  have hN : (0 : ℝ) < Fintype.card ι := by exact_mod_cast Fintype.card_pos
  have hba : 0 ≤ b - a := by linarith
  have haI : a ∈ Icc a b := ⟨le_rfl, hab⟩
  have hbI : b ∈ Icc a b := ⟨hab, le_rfl⟩
  have hpc : ContinuousOn p (Icc a b) := fun t ht => (hp t ht).continuousWithinAt
  have hpot : ∀ r, ContinuousOn (fun t => potCoeff f (q t) (p t) r) (Icc a b) := fun r =>
    (continuousOn_finsetSum _ fun j _ => ContinuousOn.mul (continuousOn_pi.1 hpc j) ((hs'.coeff j r).continuous.comp_continuousOn hd.continuous_state)).div_const _
  obtain ⟨G, hG⟩ : ∃ G : ℝ → P → ℝ, G = fun t r => weight w r * θ t r - potCoeff f (q t) (p t) r := ⟨_, rfl⟩
  have hGr : ∀ t r, weight w r * θ t r - potCoeff f (q t) (p t) r = G t r := fun t r => by rw [hG]
  simp only [hGr]
  have hGc : ContinuousOn G (Icc a b) := continuousOn_pi.2 fun r => by
    simp only [← hGr]
    exact (continuousOn_const.mul (hd.cont r)).sub (hpot r)
  obtain ⟨Γ, hΓ⟩ := isCompact_Icc.exists_bound_of_continuousOn hGc
  have hΓ0 : 0 ≤ Γ := (norm_nonneg _).trans (hΓ a haI)
  obtain ⟨C, hC, hvar⟩ := variation ha hs' hg hd hp ((b - a) * Γ ^ 2)
  have hX : 0 ≤ C * ((b - a) * Γ) := by positivity
  have hK : 0 ≤ C * (b - a) * ((b - a) * Γ ^ 2) / Fintype.card ι + (∑ r, |weight w r|) * ((b - a) * Γ ^ 2) := by positivity
  refine ⟨C * (b - a) * ((b - a) * Γ ^ 2) / Fintype.card ι + (∑ r, |weight w r|) * ((b - a) * Γ ^ 2), C * ((b - a) * Γ), hK, hX, fun η hη => ?_⟩
  obtain ⟨δ, hδ, hsmall⟩ := HasGrad.small hΦ hη
  refine ⟨min 1 (δ / (C * ((b - a) * Γ) + 1)), lt_min one_pos (by positivity), fun ε h0 hle => ?_⟩
  have h1 : ε ≤ 1 := hle.trans (min_le_left _ _)
  have hεδ : C * ((b - a) * Γ) * ε ≤ δ := by
    have h2 := hle.trans (min_le_right _ _)
    rw [le_div_iff₀ (by positivity)] at h2
    linarith
  have hθ'c : ∀ r, ContinuousOn (fun t => (θ t - ε • G t) r) (Icc a b) := fun r => (hd.cont r).sub (continuousOn_const.mul (continuousOn_pi.1 hGc r))
  obtain ⟨q', hd', he⟩ := C82_driven ha hs hg hab hθ'c (q a)
  refine ⟨fun t => θ t - ε • G t, q', hd', he, ?_⟩
  have hdiff : ∀ t, (θ t - ε • G t) - θ t = - (ε • G t) := fun t => by abel
  have hnn : ∀ t ∈ Icc a b, ‖(θ t - ε • G t) - θ t‖ ≤ ε * Γ := fun t ht => by
    rw [hdiff, norm_neg, norm_smul, Real.norm_eq_abs, abs_of_pos h0]
    exact mul_le_mul_of_nonneg_left (hΓ t ht) h0.le
  have hcδ : ContinuousOn (fun t => ‖(θ t - ε • G t) - θ t‖) (Icc a b) := (hd'.continuous_params.sub hd.continuous_params).norm
  have hI1 : ∫ t in a..b, ‖(θ t - ε • G t) - θ t‖ ≤ (b - a) * (ε * Γ) := by
    have := intervalIntegral.integral_mono_on hab (integrable_Icc hcδ haI hbI) (integrable_Icc (continuousOn_const (c := ε * Γ)) haI hbI) hnn
    rwa [intervalIntegral.integral_const, smul_eq_mul] at this
  have hI2 : ∫ t in a..b, ‖(θ t - ε • G t) - θ t‖ ^ 2 ≤ (b - a) * (ε * Γ) ^ 2 := by
    have := intervalIntegral.integral_mono_on hab (integrable_Icc (hcδ.pow 2) haI hbI) (integrable_Icc (continuousOn_const (c := (ε * Γ) ^ 2)) haI hbI) fun t ht => pow_le_pow_left₀ (norm_nonneg _) (hnn t ht) 2
    rwa [intervalIntegral.integral_const, smul_eq_mul] at this
  have hM : (b - a) * (ε * Γ) ^ 2 ≤ (b - a) * Γ ^ 2 := by
    refine mul_le_mul_of_nonneg_left (pow_le_pow_left₀ (by positivity) ?_ 2) hba
    exact mul_le_of_le_one_left hΓ0 h1
  obtain ⟨v1, v2⟩ := hvar a b le_rfl hab le_rfl _ q' hd' he (hI2.trans hM)
  -- the change of the final state
  have hstate : ‖q' b - q b‖ ≤ C * ((b - a) * Γ) * ε := v1.trans (by
    have := mul_le_mul_of_nonneg_left hI1 hC
    linarith)
  have hloss := hsmall (q' b) (hstate.trans hεδ)
  have hloss2 := (abs_le.1 hloss).2
  have hηs := mul_le_mul_of_nonneg_left hstate hη.le
  have hpair : ∑ j, p b j * (q' b j - q b j) = - (Fintype.card ι * ∑ j, g j * (q' b j - q b j)) := by
    rw [Finset.mul_sum, ← Finset.sum_neg_distrib]
    exact Finset.sum_congr rfl fun j _ => by rw [hpb]; ring
  -- the integral of the pairing with the coefficients
  have hcoef : ∀ t r, ∑ j, p t j * coeff f (q t) j r = Fintype.card ι * potCoeff f (q t) (p t) r := fun t r => by
    unfold potCoeff
    field_simp
  have hS1c : ContinuousOn (fun t => ∑ r, weight w r * θ t r * G t r) (Icc a b) := continuousOn_finsetSum _ fun r _ => (continuousOn_const.mul (hd.cont r)).mul (continuousOn_pi.1 hGc r)
  have hS2c : ContinuousOn (fun t => ∑ r, potCoeff f (q t) (p t) r * G t r) (Icc a b) := continuousOn_finsetSum _ fun r _ => (hpot r).mul (continuousOn_pi.1 hGc r)
  have hint : ∫ t in a..b, ∑ r, (∑ j, p t j * coeff f (q t) j r) * ((θ t - ε • G t) r - θ t r) = - (Fintype.card ι * ε * ∫ t in a..b, ∑ r, potCoeff f (q t) (p t) r * G t r) := by
    rw [← intervalIntegral.integral_const_mul, ← intervalIntegral.integral_neg]
    refine intervalIntegral.integral_congr fun t _ => ?_
    rw [Finset.mul_sum, ← Finset.sum_neg_distrib]
    refine Finset.sum_congr rfl fun r _ => ?_
    rw [hcoef]
    simp only [Pi.sub_apply, Pi.smul_apply, smul_eq_mul]
    ring
  have hsum : ∫ t in a..b, ∑ r, G t r ^ 2 = (∫ t in a..b, ∑ r, weight w r * θ t r * G t r) - ∫ t in a..b, ∑ r, potCoeff f (q t) (p t) r * G t r := by
    rw [← intervalIntegral.integral_sub (integrable_Icc hS1c haI hbI) (integrable_Icc hS2c haI hbI)]
    refine intervalIntegral.integral_congr fun t _ => ?_
    rw [← Finset.sum_sub_distrib]
    refine Finset.sum_congr rfl fun r _ => ?_
    rw [← hGr]
    ring
  -- the change of the cost
  have hKc : ContinuousOn (fun t => halfWeightedSquares (weight w) (ε • G t)) (Icc a b) := continuous_half _ (hGc.const_smul ε)
  have hcost : cost (weight w) (fun t => θ t - ε • G t) a b = cost (weight w) θ a b - ε * (∫ t in a..b, ∑ r, weight w r * θ t r * G t r) + ∫ t in a..b, halfWeightedSquares (weight w) (ε • G t) := by
    unfold cost
    have i1 : IntervalIntegrable (fun t => halfWeightedSquares (weight w) (θ t)) volume a b := integrable_Icc (continuous_half _ hd.continuous_params) haI hbI
    have i2 : IntervalIntegrable (fun t => ε * ∑ r, weight w r * θ t r * G t r) volume a b := integrable_Icc (continuousOn_const.mul hS1c) haI hbI
    rw [← intervalIntegral.integral_const_mul, ← intervalIntegral.integral_sub i1 i2, ← intervalIntegral.integral_add (i1.sub i2) (integrable_Icc hKc haI hbI)]
    refine intervalIntegral.integral_congr fun t _ => ?_
    beta_reduce
    have h := half_expand (weight w) (θ t) (θ t - ε • G t)
    have e1 : halfWeightedSquares (weight w) ((θ t - ε • G t) - θ t) = halfWeightedSquares (weight w) (ε • G t) := by
      unfold halfWeightedSquares
      congr 1
      refine Finset.sum_congr rfl fun r _ => ?_
      rw [hdiff]
      simp
    have e2 : ∑ r, (weight w r * θ t r) * ((θ t - ε • G t) r - θ t r) = - (ε * ∑ r, weight w r * θ t r * G t r) := by
      rw [Finset.mul_sum, ← Finset.sum_neg_distrib]
      refine Finset.sum_congr rfl fun r _ => ?_
      simp only [Pi.sub_apply, Pi.smul_apply, smul_eq_mul]
      ring
    rw [e1, e2] at h
    linarith
  have hKint : ∫ t in a..b, halfWeightedSquares (weight w) (ε • G t) ≤ (∑ r, |weight w r|) * ((b - a) * Γ ^ 2) * ε ^ 2 := by
    have := intervalIntegral.integral_mono_on hab (integrable_Icc hKc haI hbI) (integrable_Icc (continuousOn_const (c := (∑ r, |weight w r|) * (ε * Γ) ^ 2)) haI hbI) fun t ht =>
      (le_abs_self _).trans ((half_upper _).trans (mul_le_mul_of_nonneg_left (pow_le_pow_left₀ (norm_nonneg _) (by
        rw [norm_smul, Real.norm_eq_abs, abs_of_pos h0]
        exact mul_le_mul_of_nonneg_left (hΓ t ht) h0.le) 2) (by positivity)))
    rw [intervalIntegral.integral_const, smul_eq_mul] at this
    refine this.trans (le_of_eq (by ring))
  -- together
  rw [hint, hpair] at v2
  have v3 := v2.trans (mul_le_mul_of_nonneg_left hI2 (by positivity : 0 ≤ C * (b - a)))
  have v4 := (abs_le.1 v3).1
  have v5 : ∑ j, g j * (q' b j - q b j) ≤ ε * (∫ t in a..b, ∑ r, potCoeff f (q t) (p t) r * G t r) + C * (b - a) * ((b - a) * (ε * Γ) ^ 2) / Fintype.card ι := by
    rw [← sub_le_iff_le_add', le_div_iff₀ hN]
    linarith
  rw [hcost, hsum]
  have e3 : C * (b - a) * ((b - a) * (ε * Γ) ^ 2) / Fintype.card ι = C * (b - a) * ((b - a) * Γ ^ 2) / Fintype.card ι * ε ^ 2 := by ring
  rw [e3] at v5
  generalize (∫ t in a..b, ∑ r, potCoeff f (q t) (p t) r * G t r) = S2 at *
  generalize (∫ t in a..b, ∑ r, weight w r * θ t r * G t r) = S1 at *
  generalize (∫ t in a..b, halfWeightedSquares (weight w) (ε • G t)) = T at *
  generalize (∑ j, g j * (q' b j - q b j)) = U at *
  linarith

/-- C82: if parameters that vary continuously with time have the smallest sum of their cost and of a differentiable loss at the final state, they are the parameters of a shooting trajectory: there
are costates, whose final value is minus the number of particles times the gradient of the loss, with which the parameters computed by the library at each time are exactly the given ones. -/
theorem C82_best_is_shooting [Nonempty ι] {f : Rhs (ι × K) P} (ha : AffineInParams f) (hs : SmoothRhs 2 f) (hg : Growth f) (w : P → Option ℝ) (hw : ∀ r, weight w r ≠ 0) {Φ : (ι × K → ℝ) → ℝ}
    {θ : ℝ → P → ℝ} {q : ℝ → ι × K → ℝ} {a b : ℝ} (hab : a < b) (hbest : BestFor f (weight w) Φ θ q a b) {g : ι × K → ℝ} (hΦ : HasGrad Φ g (q b)) (θ0 : ℝ → P → ℝ) :
    ∃ p, Trajectory f w θ0 q p a b ∧ (∀ t ∈ Icc a b, θ t = directParameters f w (θ0 t) (q t) (p t)) ∧ p b = fun j => - (Fintype.card ι * g j) := by
  have hs' : SmoothRhs (1 + 1) f := hs
  obtain ⟨hd, hmin⟩ := hbest
  obtain ⟨p, hp, hpb⟩ := exists_adjoint hs' hab.le hd fun j => - (Fintype.card ι * g j)
  have hpc : ContinuousOn p (Icc a b) := fun t ht => (hp t ht).continuousWithinAt
  have hpot : ∀ r, ContinuousOn (fun t => potCoeff f (q t) (p t) r) (Icc a b) := fun r =>
    (continuousOn_finsetSum _ fun j _ => ContinuousOn.mul (continuousOn_pi.1 hpc j) ((hs'.coeff j r).continuous.comp_continuousOn hd.continuous_state)).div_const _
  have hG : ContinuousOn (fun t => ∑ r, (weight w r * θ t r - potCoeff f (q t) (p t) r) ^ 2) (Icc a b) :=
    continuousOn_finsetSum _ fun r _ => ((continuousOn_const.mul (hd.cont r)).sub (hpot r)).pow 2
  have hzero : ¬ 0 < ∫ t in a..b, ∑ r, (weight w r * θ t r - potCoeff f (q t) (p t) r) ^ 2 := by
    intro hS
    obtain ⟨A, B, hA, hB, h⟩ := descent ha hs hg w hab.le hd hp hΦ (fun j => by rw [hpb])
    generalize (∫ t in a..b, ∑ r, (weight w r * θ t r - potCoeff f (q t) (p t) r) ^ 2) = S at *
    obtain ⟨ε0, h0, h1⟩ := h (S / (4 * (B + 1))) (by positivity)
    have hε : 0 < min ε0 (S / (4 * (A + 1))) := lt_min h0 (by positivity)
    obtain ⟨θ', q', hd', he', hlt⟩ := h1 _ hε (min_le_left _ _)
    have h2 := hmin θ' q' hd' he'
    have h3 : min ε0 (S / (4 * (A + 1))) * S ≤ min ε0 (S / (4 * (A + 1))) * (A * min ε0 (S / (4 * (A + 1))) + S / (4 * (B + 1)) * B) := by nlinarith
    have h4 := le_of_mul_le_mul_left h3 hε
    have h5 : A * min ε0 (S / (4 * (A + 1))) ≤ S / 4 := by
      have h6 : A * min ε0 (S / (4 * (A + 1))) ≤ (A + 1) * (S / (4 * (A + 1))) := mul_le_mul (by linarith) (min_le_right _ _) hε.le (by linarith)
      have h7 : (A + 1) * (S / (4 * (A + 1))) = S / 4 := by field_simp
      linarith
    have h8 : S / (4 * (B + 1)) * B ≤ S / 4 := by
      have h6 : S / (4 * (B + 1)) * B ≤ S / (4 * (B + 1)) * (B + 1) := mul_le_mul_of_nonneg_left (by linarith) (by positivity)
      have h7 : S / (4 * (B + 1)) * (B + 1) = S / 4 := by field_simp
      linarith
    linarith
  have hpar : ∀ t ∈ Icc a b, θ t = directParameters f w (θ0 t) (q t) (p t) := by
    intro t ht
    have h0 : ∑ r, (weight w r * θ t r - potCoeff f (q t) (p t) r) ^ 2 = 0 := by
      by_contra hne
      exact hzero (intervalIntegral.integral_pos hab hG (fun t _ => Finset.sum_nonneg fun r _ => sq_nonneg _) ⟨t, ht, lt_of_le_of_ne (Finset.sum_nonneg fun r _ => sq_nonneg _) (Ne.symm hne)⟩)
    funext r
    have h1 := (Finset.sum_eq_zero_iff_of_nonneg fun r _ => sq_nonneg _).1 h0 r (Finset.mem_univ r)
    rw [directParameters_eq ha, eq_div_iff (hw r)]
    have := pow_eq_zero_iff (two_ne_zero) |>.1 h1
    linarith
  refine ⟨p, ⟨fun t ht j => ?_, fun t ht j => ?_⟩, hpar, hpb⟩
  · rw [← hpar t ht]
    exact hd.state t ht j
  · rw [costateRhs_eq ha hs' w hw, ← hpar t ht]
    exact hasDerivWithinAt_pi.1 (hp t ht) j

/-- C82: conversely every shooting trajectory whose final costate is minus the number of particles times the gradient of the loss is critical for the sum of cost and loss: other parameters that
differ by at most `ε` from its parameters change the sum by less than any given multiple of `ε`, for small `ε`. -/
theorem C82_shooting_is_critical [Nonempty ι] {f : Rhs (ι × K) P} (ha : AffineInParams f) (hs : SmoothRhs 2 f) (hg : Growth f) (w : P → Option ℝ) (hw : ∀ r, weight w r ≠ 0) {Φ : (ι × K → ℝ) → ℝ}
    {θ0 : ℝ → P → ℝ} {q p : ℝ → ι × K → ℝ} {a b : ℝ} (hab : a ≤ b) (tr : Trajectory f w θ0 q p a b) {g : ι × K → ℝ} (hΦ : HasGrad Φ g (q b)) (hpb : p b = fun j => - (Fintype.card ι * g j)) :
    ∀ η, 0 < η → ∃ ε0, 0 < ε0 ∧ ∀ ε, 0 < ε → ε ≤ ε0 → ∀ θ' q', Driven f θ' q' a b → q' a = q a → (∀ t ∈ Icc a b, ∀ r, |θ' t r - directParameters f w (θ0 t) (q t) (p t) r| ≤ ε) →
      |(cost (weight w) θ' a b + Φ (q' b)) - (cost (weight w) (fun t => directParameters f w (θ0 t) (q t) (p t)) a b + Φ (q b))| ≤ η * ε := by
  intro η hη
  have hs' : SmoothRhs (1 + 1) f := hs
  have hN : (0 : ℝ) < Fintype.card ι := by exact_mod_cast Fintype.card_pos
  have hba : 0 ≤ b - a := by linarith
  have haI : a ∈ Icc a b := ⟨le_rfl, hab⟩
  have hbI : b ∈ Icc a b := ⟨hab, le_rfl⟩
  have hd0 := trajectory_driven ha hs' tr
  obtain ⟨C, hfirst⟩ := C81_first_variation ha hs hg w hw hab tr
  obtain ⟨D, hD, hvar⟩ := variation ha hs' hg hd0 (trajectory_adjoint ha hs' hw tr) (b - a)
  have hDb : 0 ≤ D * (b - a) := by positivity
  obtain ⟨δ, hδ, hsmall⟩ := HasGrad.small hΦ (η := η / (2 * (D * (b - a) + 1))) (by positivity)
  refine ⟨min 1 (min (δ / (D * (b - a) + 1)) (η / (2 * (|C| + 1)))), by positivity, fun ε h0 hle θ' q' hd he hε => ?_⟩
  have h1 : ε ≤ 1 := hle.trans (min_le_left _ _)
  have h2 : ε ≤ δ / (D * (b - a) + 1) := hle.trans ((min_le_right _ _).trans (min_le_left _ _))
  have h3 : ε ≤ η / (2 * (|C| + 1)) := hle.trans ((min_le_right _ _).trans (min_le_right _ _))
  rw [le_div_iff₀ (by positivity)] at h2 h3
  have hnn : ∀ t ∈ Icc a b, ‖θ' t - along f w θ0 q p t‖ ≤ ε := fun t ht => (pi_norm_le_iff_of_nonneg h0.le).2 fun r => hε t ht r
  have hcδ : ContinuousOn (fun t => ‖θ' t - along f w θ0 q p t‖) (Icc a b) := (hd.continuous_params.sub hd0.continuous_params).norm
  have hI1 : ∫ t in a..b, ‖θ' t - along f w θ0 q p t‖ ≤ (b - a) * ε := by
    have := intervalIntegral.integral_mono_on hab (integrable_Icc hcδ haI hbI) (integrable_Icc (continuousOn_const (c := ε)) haI hbI) hnn
    rwa [intervalIntegral.integral_const, smul_eq_mul] at this
  have hI2 : ∫ t in a..b, ‖θ' t - along f w θ0 q p t‖ ^ 2 ≤ (b - a) * 1 := by
    have := intervalIntegral.integral_mono_on hab (integrable_Icc (hcδ.pow 2) haI hbI) (integrable_Icc (continuousOn_const (c := (1 : ℝ))) haI hbI) fun t ht => pow_le_one₀ (norm_nonneg _) ((hnn t ht).trans h1)
    rwa [intervalIntegral.integral_const, smul_eq_mul] at this
  have hst := (hvar a b le_rfl hab le_rfl θ' q' hd he (hI2.trans (by linarith))).1
  have hst2 : ‖q' b - q b‖ ≤ D * (b - a) * ε := hst.trans (by
    have := mul_le_mul_of_nonneg_left hI1 hD
    linarith)
  have hloss := hsmall (q' b) (hst2.trans (by nlinarith))
  have hf := hfirst ε h0.le h1 θ' q' hd he hε
  have hpair : (∑ j, p b j * (q' b j - q b j)) / Fintype.card ι = - ∑ j, g j * (q' b j - q b j) := by
    rw [div_eq_iff hN.ne', ← Finset.sum_neg_distrib, Finset.sum_mul]
    exact Finset.sum_congr rfl fun j _ => by rw [hpb]; ring
  rw [hpair] at hf
  have e1 : C * ε ^ 2 ≤ η / 2 * ε := by
    have h4 : C * ε ^ 2 ≤ |C| * ε ^ 2 := mul_le_mul_of_nonneg_right (le_abs_self C) (sq_nonneg _)
    have h5 : (|C| + 1) * ε ≤ η / 2 := by linarith
    nlinarith [abs_nonneg C]
  have e2 : η / (2 * (D * (b - a) + 1)) * ‖q' b - q b‖ ≤ η / 2 * ε := by
    have h4 : η / (2 * (D * (b - a) + 1)) * ‖q' b - q b‖ ≤ η / (2 * (D * (b - a) + 1)) * ((D * (b - a) + 1) * ε) := mul_le_mul_of_nonneg_left (by linarith) (by positivity)
    have h5 : η / (2 * (D * (b - a) + 1)) * ((D * (b - a) + 1) * ε) = η / 2 * ε := by field_simp
    linarith
  have hf' := abs_le.1 (hf.trans e1)
  have hl' := abs_le.1 (hloss.trans e2)
  rw [abs_le]
  constructor <;> linarith [hf'.1, hf'.2, hl'.1, hl'.2]

end Verif.Optimal
