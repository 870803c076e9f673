import Verif.Optimal.Lemmas

/-!
# C81: shooting trajectories are critical, and short ones are optimal
-/

namespace Verif.Optimal
open Set MeasureTheory Verif.Shooting Verif.Converge

variable {ι K P : Type} [Fintype ι] [Fintype K] [Fintype P]

/-- C81: let other parameters `θ'` differ by at most `ε` at all times from the parameters along an exact trajectory, and move the particles from the same start.  Then their cost differs from
the cost of the trajectory by the pairing of the final costate with the change of the final state (divided by the number of particles), up to a multiple of `ε ^ 2`. -/
theorem C81_first_variation [Nonempty ι] {f : Rhs (ι × K) P} (ha : AffineInParams f) (hs : SmoothRhs 2 f) (hg : Growth f) (w : P → Option ℝ) (hw : ∀ r, weight w r ≠ 0)
    {θ0 : ℝ → P → ℝ} {q p : ℝ → ι × K → ℝ} {a b : ℝ} (hab : a ≤ b) (tr : Trajectory f w θ0 q p a b) :
    ∃ C, ∀ ε, 0 ≤ ε → ε ≤ 1 → ∀ θ' q', Driven f θ' q' a b → q' a = q a → (∀ t ∈ Icc a b, ∀ r, |θ' t r - directParameters f w (θ0 t) (q t) (p t) r| ≤ ε) →
      |cost (weight w) θ' a b - cost (weight w) (fun t => directParameters f w (θ0 t) (q t) (p t)) a b - (∑ j, p b j * (q' b j - q b j)) / Fintype.card ι| ≤ C * ε ^ 2 := by
  have hN : (0 : ℝ) < Fintype.card ι := by exact_mod_cast Fintype.card_pos
  have hd0 := trajectory_driven ha hs tr
  obtain ⟨C, hC, h⟩ := cost_estimate ha hs hg w hw tr (b - a)
  refine ⟨C * (b - a) * (b - a) / Fintype.card ι + (∑ r, |weight w r|) * (b - a), fun ε h0 h1 θ' q' hd he hε => ?_⟩
  have haI : a ∈ Icc a b := ⟨le_rfl, hab⟩
  have hbI : b ∈ Icc a b := ⟨hab, le_rfl⟩
  have hδ : ContinuousOn (fun t => θ' t - along f w θ0 q p t) (Icc a b) := hd.continuous_params.sub hd0.continuous_params
  have hnorm : ∀ t ∈ Icc a b, ‖θ' t - along f w θ0 q p t‖ ≤ ε := fun t ht => (pi_norm_le_iff_of_nonneg h0).2 fun r => hε t ht r
  have hsq : ∀ t ∈ Icc a b, ‖θ' t - along f w θ0 q p t‖ ^ 2 ≤ ε ^ 2 := fun t ht => pow_le_pow_left₀ (norm_nonneg _) (hnorm t ht) 2
  have hint : ∫ t in a..b, ‖θ' t - along f w θ0 q p t‖ ^ 2 ≤ (b - a) * ε ^ 2 := by
    have := intervalIntegral.integral_mono_on hab (integrable_Icc (hδ.norm.pow 2) haI hbI) (integrable_Icc (continuousOn_const (c := ε ^ 2)) haI hbI) hsq
    rwa [intervalIntegral.integral_const, smul_eq_mul] at this
  have hε1 : ε ^ 2 ≤ 1 := pow_le_one₀ h0 h1
  have hba : 0 ≤ b - a := by linarith
  have hest := h a b le_rfl hab le_rfl θ' q' hd he (hint.trans (by nlinarith))
  have hcost : |cost (weight w) (fun t => θ' t - along f w θ0 q p t) a b| ≤ (∑ r, |weight w r|) * (b - a) * ε ^ 2 := by
    have := intervalIntegral.norm_integral_le_of_norm_le_const (a := a) (b := b) (f := fun t => halfWeightedSquares (weight w) (θ' t - along f w θ0 q p t)) (C := (∑ r, |weight w r|) * ε ^ 2)
      fun t ht => by
        rw [uIoc_of_le hab] at ht
        exact (half_upper _).trans (mul_le_mul_of_nonneg_left (hsq t (Ioc_subset_Icc_self ht)) (by positivity))
    rw [abs_of_nonneg hba] at this
    exact this.trans (le_of_eq (by ring))
  have hC2 : C * (b - a) * ∫ t in a..b, ‖θ' t - along f w θ0 q p t‖ ^ 2 ≤ C * (b - a) * ((b - a) * ε ^ 2) := mul_le_mul_of_nonneg_left hint (by positivity)
  have hest2 := hest.trans hC2
  change |cost (weight w) θ' a b - cost (weight w) (along f w θ0 q p) a b - (∑ j, p b j * (q' b j - q b j)) / Fintype.card ι| ≤ _
  generalize cost (weight w) θ' a b = c' at *
  generalize cost (weight w) (along f w θ0 q p) a b = c0 at *
  generalize cost (weight w) (fun t => θ' t - along f w θ0 q p t) a b = d at *
  generalize (∑ j, p b j * (q' b j - q b j)) = S at *
  have e : c' - c0 - S / Fintype.card ι = d - (S - Fintype.card ι * (c' - c0 - d)) / Fintype.card ι := by
    field_simp
    ring
  rw [e]
  refine (abs_sub _ _).trans ?_
  rw [abs_div, abs_of_pos hN]
  have h3 : |S - Fintype.card ι * (c' - c0 - d)| / Fintype.card ι ≤ C * (b - a) * ((b - a) * ε ^ 2) / Fintype.card ι := (div_le_div_iff_of_pos_right hN).2 hest2
  calc _ ≤ (∑ r, |weight w r|) * (b - a) * ε ^ 2 + C * (b - a) * ((b - a) * ε ^ 2) / Fintype.card ι := add_le_add hcost h3
    _ = _ := by ring

/-- C81: shooting trajectories are critical points of the cost: other parameters that differ by at most `ε` and lead to the same final state save at most a multiple of `ε ^ 2`. -/
theorem C81_critical [Nonempty ι] {f : Rhs (ι × K) P} (ha : AffineInParams f) (hs : SmoothRhs 2 f) (hg : Growth f) (w : P → Option ℝ) (hw : ∀ r, weight w r ≠ 0)
    {θ0 : ℝ → P → ℝ} {q p : ℝ → ι × K → ℝ} {a b : ℝ} (hab : a ≤ b) (tr : Trajectory f w θ0 q p a b) :
    ∃ C, ∀ ε, 0 ≤ ε → ε ≤ 1 → ∀ θ' q', Driven f θ' q' a b → q' a = q a → q' b = q b → (∀ t ∈ Icc a b, ∀ r, |θ' t r - directParameters f w (θ0 t) (q t) (p t) r| ≤ ε) →
      |cost (weight w) θ' a b - cost (weight w) (fun t => directParameters f w (θ0 t) (q t) (p t)) a b| ≤ C * ε ^ 2 := by
  obtain ⟨C, h⟩ := C81_first_variation ha hs hg w hw hab tr
  refine ⟨C, fun ε h0 h1 θ' q' hd he hb hε => ?_⟩
  have := h ε h0 h1 θ' q' hd he hε
  simpa [hb] using this

/-- C81: short pieces of a shooting trajectory are the best way from their start to their end: with positive weights there is a length `h` such that on every piece of the trajectory that is
not longer, all other parameters that vary continuously with time and lead to the same end cost more. -/
theorem C81_short_is_best [Nonempty ι] {f : Rhs (ι × K) P} (ha : AffineInParams f) (hs : SmoothRhs 2 f) (hg : Growth f) (w : P → Option ℝ) (hw : ∀ r, 0 < weight w r)
    {θ0 : ℝ → P → ℝ} {q p : ℝ → ι × K → ℝ} {a b : ℝ} (tr : Trajectory f w θ0 q p a b) :
    ∃ h, 0 < h ∧ ∀ s c, a ≤ s → s < c → c ≤ b → c - s ≤ h → ∀ θ' q', Driven f θ' q' s c → q' s = q s → q' c = q c →
      cost (weight w) (fun t => directParameters f w (θ0 t) (q t) (p t)) s c ≤ cost (weight w) θ' s c ∧
      (cost (weight w) (fun t => directParameters f w (θ0 t) (q t) (p t)) s c = cost (weight w) θ' s c → ∀ t ∈ Icc s c, θ' t = directParameters f w (θ0 t) (q t) (p t)) := by
  have hN : (0 : ℝ) < Fintype.card ι := by exact_mod_cast Fintype.card_pos
  have hw' : ∀ r, weight w r ≠ 0 := fun r => (hw r).ne'
  have hd0 := trajectory_driven ha hs tr
  obtain ⟨ω, hω, hlow⟩ := half_lower hw
  obtain ⟨C, hC, h⟩ := cost_estimate ha hs hg w hw' tr (4 * cost (weight w) (along f w θ0 q p) a b / ω)
  have hnn : ∀ θ : P → ℝ, 0 ≤ halfWeightedSquares (weight w) θ := half_nonneg fun r => (hw r).le
  refine ⟨Fintype.card ι * ω / (2 * (C + 1)), by positivity, fun s c has hsc hcb hlen θ' q' hd he hb => ?_⟩
  change cost (weight w) (along f w θ0 q p) s c ≤ _ ∧ (cost (weight w) (along f w θ0 q p) s c = _ → ∀ t ∈ Icc s c, θ' t = along f w θ0 q p t)
  have hsI : s ∈ Icc s c := ⟨le_rfl, hsc.le⟩
  have hcI : c ∈ Icc s c := ⟨hsc.le, le_rfl⟩
  have hθ := (hd0.mono has hcb).continuous_params
  have hδ : ContinuousOn (fun t => θ' t - along f w θ0 q p t) (Icc s c) := hd.continuous_params.sub hθ
  by_cases hle : cost (weight w) θ' s c ≤ cost (weight w) (along f w θ0 q p) s c
  swap
  · push Not at hle
    exact ⟨hle.le, fun e => absurd e hle.ne⟩
  have i1 : IntervalIntegrable (fun t => halfWeightedSquares (weight w) (θ' t)) volume s c := integrable_Icc (continuous_half _ hd.continuous_params) hsI hcI
  have i2 : IntervalIntegrable (fun t => halfWeightedSquares (weight w) (along f w θ0 q p t)) volume s c := integrable_Icc (continuous_half _ hθ) hsI hcI
  have i3 : IntervalIntegrable (fun t => halfWeightedSquares (weight w) (θ' t - along f w θ0 q p t)) volume s c := integrable_Icc (continuous_half _ hδ) hsI hcI
  have i4 : IntervalIntegrable (fun t => ‖θ' t - along f w θ0 q p t‖ ^ 2) volume s c := integrable_Icc (hδ.norm.pow 2) hsI hcI
  -- the difference costs at most four times the cost of the trajectory
  have hd1 : cost (weight w) (fun t => θ' t - along f w θ0 q p t) s c ≤ 2 * cost (weight w) θ' s c + 2 * cost (weight w) (along f w θ0 q p) s c := by
    unfold cost
    rw [← intervalIntegral.integral_const_mul, ← intervalIntegral.integral_const_mul, ← intervalIntegral.integral_add (i1.const_mul 2) (i2.const_mul 2)]
    exact intervalIntegral.integral_mono_on hsc.le i3 ((i1.const_mul 2).add (i2.const_mul 2)) fun t _ => half_sub_le (fun r => (hw r).le) _ _
  have hd2 : cost (weight w) (along f w θ0 q p) s c ≤ cost (weight w) (along f w θ0 q p) a b := by
    have hab : a ≤ b := has.trans (hsc.le.trans hcb)
    have hk := continuous_half (weight w) hd0.continuous_params
    have sI : s ∈ Icc a b := ⟨has, hsc.le.trans hcb⟩
    have cI : c ∈ Icc a b := ⟨has.trans hsc.le, hcb⟩
    have e1 := intervalIntegral.integral_add_adjacent_intervals (integrable_Icc hk ⟨le_rfl, hab⟩ sI) (integrable_Icc hk sI cI)
    have e2 := intervalIntegral.integral_add_adjacent_intervals (integrable_Icc hk ⟨le_rfl, hab⟩ cI) (integrable_Icc hk cI ⟨hab, le_rfl⟩)
    have n1 : 0 ≤ ∫ t in a..s, halfWeightedSquares (weight w) (along f w θ0 q p t) := intervalIntegral.integral_nonneg has fun t _ => hnn _
    have n2 : 0 ≤ ∫ t in c..b, halfWeightedSquares (weight w) (along f w θ0 q p t) := intervalIntegral.integral_nonneg hcb fun t _ => hnn _
    unfold cost
    linarith
  have hd3 : ω * ∫ t in s..c, ‖θ' t - along f w θ0 q p t‖ ^ 2 ≤ cost (weight w) (fun t => θ' t - along f w θ0 q p t) s c := by
    rw [← intervalIntegral.integral_const_mul]
    exact intervalIntegral.integral_mono_on hsc.le (i4.const_mul ω) i3 fun t _ => hlow _
  have hM : ∫ t in s..c, ‖θ' t - along f w θ0 q p t‖ ^ 2 ≤ 4 * cost (weight w) (along f w θ0 q p) a b / ω := by
    rw [le_div_iff₀ hω]
    linarith
  have hest := h s c has hsc.le hcb θ' q' hd he hM
  have hE : 0 ≤ ∫ t in s..c, ‖θ' t - along f w θ0 q p t‖ ^ 2 := intervalIntegral.integral_nonneg hsc.le fun t _ => sq_nonneg _
  have hS : (∑ j, p c j * (q' c j - q c j)) = 0 := by simp [hb]
  rw [hS, zero_sub, abs_neg] at hest
  have hCl : C * (c - s) ≤ Fintype.card ι * ω / 2 := by
    have h1 : C * (c - s) ≤ (C + 1) * (Fintype.card ι * ω / (2 * (C + 1))) := mul_le_mul (by linarith) hlen (by linarith) (by linarith)
    have h2 : (C + 1) * (Fintype.card ι * ω / (2 * (C + 1))) = Fintype.card ι * ω / 2 := by field_simp
    linarith
  have hfin : Fintype.card ι * ω / 2 * ∫ t in s..c, ‖θ' t - along f w θ0 q p t‖ ^ 2 ≤ Fintype.card ι * (cost (weight w) θ' s c - cost (weight w) (along f w θ0 q p) s c) := by
    have h1 := mul_le_mul_of_nonneg_right hCl hE
    have h2 := (abs_le.1 (hest.trans h1)).1
    have h3 := mul_le_mul_of_nonneg_left hd3 hN.le
    nlinarith
  have hge : cost (weight w) (along f w θ0 q p) s c ≤ cost (weight w) θ' s c := by
    have h0 : 0 ≤ Fintype.card ι * ω / 2 * ∫ t in s..c, ‖θ' t - along f w θ0 q p t‖ ^ 2 := by positivity
    have := nonneg_of_mul_nonneg_right (h0.trans hfin) hN
    linarith
  refine ⟨hge, fun e t ht => ?_⟩
  rw [e, sub_self, mul_zero] at hfin
  by_contra hne
  have hpos : 0 < ∫ t in s..c, ‖θ' t - along f w θ0 q p t‖ ^ 2 :=
    intervalIntegral.integral_pos hsc (hδ.norm.pow 2) (fun t _ => sq_nonneg _) ⟨t, ht, pow_pos (norm_pos_iff.2 (sub_ne_zero.2 hne)) 2⟩
  have : 0 < Fintype.card ι * ω / 2 * ∫ t in s..c, ‖θ' t - along f w θ0 q p t‖ ^ 2 := by positivity
  linarith

/-- C81: for right-hand sides linear in the parameters, the cost along an exact trajectory is the length of the interval times the norm penalty that the library records at the initial time. -/
theorem C81_cost_is_penalty [Nonempty ι] {f : Rhs (ι × K) P} (h : LinearInParams f) (hs : SmoothRhs 2 f) (w : P → Option ℝ) (hw : ∀ r, weight w r ≠ 0)
    {θ0 : ℝ → P → ℝ} {q p : ℝ → ι × K → ℝ} {a b : ℝ} (hab : a ≤ b) (tr : Trajectory f w θ0 q p a b) :
    cost (weight w) (fun t => directParameters f w (θ0 t) (q t) (p t)) a b = (b - a) * kineticEnergy w (directParameters f w (θ0 a) (q a) (p a)) := by
  have hs' : SmoothRhs (1 + 1) f := hs
  unfold cost
  have e : ∫ t in a..b, halfWeightedSquares (weight w) (directParameters f w (θ0 t) (q t) (p t)) = ∫ _ in a..b, kineticEnergy w (directParameters f w (θ0 a) (q a) (p a)) := by
    refine intervalIntegral.integral_congr fun t ht => ?_
    rw [uIcc_of_le hab] at ht
    have := C35_norm_penalty_constant h w hw (fun θ q j => hs'.differentiable θ j q) tr ht
    rw [kineticEnergy_half] at this
    exact this
  rw [e, intervalIntegral.integral_const, smul_eq_mul]

end Verif.Optimal
