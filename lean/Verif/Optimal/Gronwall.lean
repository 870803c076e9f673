import Mathlib.MeasureTheory.Integral.IntervalIntegral.FundThmCalculus
import Mathlib.Analysis.Calculus.MeanValue
import Mathlib.Analysis.SpecialFunctions.ExpDeriv

/-!
# Integrals of continuous functions on an interval, and Gronwall's inequality with rates that depend on time

Nothing here is about the library.
-/

namespace Verif.Optimal
open Set MeasureTheory

theorem exists_extension {k : ℝ → ℝ} {a c : ℝ} (hac : a ≤ c) (hk : ContinuousOn k (Icc a c)) : ∃ k', Continuous k' ∧ ∀ t ∈ Icc a c, k' t = k t :=
  ⟨IccExtend hac ((Icc a c).domRestrict k), (continuousOn_iff_continuous_domRestrict.1 hk).Icc_extend', fun t ht => by rw [IccExtend_of_mem _ _ ht]; rfl⟩

theorem integral_congr_Icc {k k' : ℝ → ℝ} {a c : ℝ} (h : ∀ t ∈ Icc a c, k' t = k t) {s t : ℝ} (hs : s ∈ Icc a c) (ht : t ∈ Icc a c) : ∫ u in s..t, k' u = ∫ u in s..t, k u :=
  intervalIntegral.integral_congr fun u hu => h u (uIcc_subset_Icc hs ht hu)

theorem integrable_Icc {k : ℝ → ℝ} {a c : ℝ} (hk : ContinuousOn k (Icc a c)) {s t : ℝ} (hs : s ∈ Icc a c) (ht : t ∈ Icc a c) : IntervalIntegrable k volume s t :=
  (hk.mono (uIcc_subset_Icc hs ht)).intervalIntegrable

/-- The integral up to `t` has the value at `t` as derivative. -/
theorem hasDeriv_integral {k : ℝ → ℝ} {a c : ℝ} (hk : ContinuousOn k (Icc a c)) {t : ℝ} (ht : t ∈ Icc a c) :
    HasDerivWithinAt (fun s => ∫ u in a..s, k u) (k t) (Icc a c) t := by
  have hac : a ≤ c := ht.1.trans ht.2
  obtain ⟨k', hk', he⟩ := exists_extension hac hk
  have h := (hk'.integral_hasStrictDerivAt a t).hasDerivAt.hasDerivWithinAt (s := Icc a c)
  rw [he t ht] at h
  exact h.congr (fun s hs => (integral_congr_Icc he ⟨le_rfl, hac⟩ hs).symm) (integral_congr_Icc he ⟨le_rfl, hac⟩ ht).symm

theorem right_deriv {E : Type} [NormedAddCommGroup E] [NormedSpace ℝ E] {x : ℝ → E} {v : E} {a c t : ℝ} (ht : t ∈ Ico a c) (h : HasDerivWithinAt x v (Icc a c) t) :
    HasDerivWithinAt x v (Ici t) t := h.mono_of_mem_nhdsWithin (Icc_mem_nhdsGE_of_mem ht)

theorem integral_nonneg_Icc {k : ℝ → ℝ} {a c : ℝ} (h0 : ∀ t ∈ Icc a c, 0 ≤ k t) {t : ℝ} (ht : t ∈ Icc a c) : 0 ≤ ∫ u in a..t, k u :=
  intervalIntegral.integral_nonneg ht.1 fun u hu => h0 u ⟨hu.1, hu.2.trans ht.2⟩

/-- Gronwall's inequality: if the speed is at most `k t` times the norm plus `g t`, the norm is at most `exp (∫ k) * (x0 + ∫ g)`. -/
theorem gronwall {E : Type} [NormedAddCommGroup E] [NormedSpace ℝ E] {x x' : ℝ → E} {k g : ℝ → ℝ} {a c x0 : ℝ} (hk : ContinuousOn k (Icc a c)) (hg : ContinuousOn g (Icc a c))
    (hk0 : ∀ t ∈ Icc a c, 0 ≤ k t) (hg0 : ∀ t ∈ Icc a c, 0 ≤ g t) (hx : ∀ t ∈ Icc a c, HasDerivWithinAt x (x' t) (Icc a c) t) (ha : ‖x a‖ ≤ x0)
    (hb : ∀ t ∈ Icc a c, ‖x' t‖ ≤ k t * ‖x t‖ + g t) : ∀ t ∈ Icc a c, ‖x t‖ ≤ Real.exp (∫ s in a..t, k s) * (x0 + ∫ s in a..t, g s) := by
  intro t ht
  have key : ∀ ε : ℝ, 0 < ε → ‖x t‖ ≤ Real.exp (∫ s in a..t, k s) * (x0 + (∫ s in a..t, g s) + ε * (t - a)) := by
    intro ε hε
    have hB : ∀ t ∈ Icc a c, HasDerivWithinAt (fun t => Real.exp (∫ s in a..t, k s) * (x0 + (∫ s in a..t, g s) + ε * (t - a)))
        (Real.exp (∫ s in a..t, k s) * k t * (x0 + (∫ s in a..t, g s) + ε * (t - a)) + Real.exp (∫ s in a..t, k s) * (g t + ε)) (Icc a c) t := by
      intro t ht
      have h1 := (hasDeriv_integral hk ht).exp
      have h2 := ((hasDeriv_integral hg ht).const_add x0).add ((((hasDerivAt_id' t).sub_const a).const_mul ε).hasDerivWithinAt (s := Icc a c))
      rw [mul_one] at h2
      exact h1.mul h2
    refine image_norm_le_of_norm_deriv_right_lt_deriv_boundary' (f := x) (f' := x') (fun t ht => (hx t ht).continuousWithinAt) (fun t ht => right_deriv ht (hx t (Ico_subset_Icc_self ht)))
      (B := fun t => Real.exp (∫ s in a..t, k s) * (x0 + (∫ s in a..t, g s) + ε * (t - a))) (by simpa using ha) (fun t ht => (hB t ht).continuousWithinAt)
      (fun t ht => right_deriv ht (hB t (Ico_subset_Icc_self ht))) (fun t ht he => ?_) ht
    have ht' := Ico_subset_Icc_self ht
    have h1 : 1 ≤ Real.exp (∫ s in a..t, k s) := Real.one_le_exp (integral_nonneg_Icc hk0 ht')
    have h2 := hb t ht'
    rw [he] at h2
    have h3 := hg0 t ht'
    nlinarith
  have h0 : 0 ≤ Real.exp (∫ s in a..t, k s) * (t - a) := mul_nonneg (Real.exp_pos _).le (by linarith [ht.1])
  refine le_of_forall_pos_le_add fun ε hε => ?_
  have h1 := key (ε / (Real.exp (∫ s in a..t, k s) * (t - a) + 1)) (by positivity)
  refine h1.trans ?_
  have h2 : ε / (Real.exp (∫ s in a..t, k s) * (t - a) + 1) * (Real.exp (∫ s in a..t, k s) * (t - a)) ≤ ε := by
    rw [div_mul_eq_mul_div, div_le_iff₀ (by positivity)]
    nlinarith
  linarith

/-- The square of an integral is at most the length of the interval times the integral of the square. -/
theorem sq_integral_le {k : ℝ → ℝ} {a c : ℝ} (hac : a ≤ c) (hk : ContinuousOn k (Icc a c)) : (∫ t in a..c, k t) ^ 2 ≤ (c - a) * ∫ t in a..c, k t ^ 2 := by
  rcases hac.eq_or_lt with rfl | h
  · simp
  have ha : a ∈ Icc a c := ⟨le_rfl, hac⟩
  have hc : c ∈ Icc a c := ⟨hac, le_rfl⟩
  have hl : 0 < c - a := by linarith
  have h0 : 0 ≤ ∫ t in a..c, (k t - (∫ t in a..c, k t) / (c - a)) ^ 2 := intervalIntegral.integral_nonneg hac fun t _ => sq_nonneg _
  have h1 : ∫ t in a..c, (k t - (∫ t in a..c, k t) / (c - a)) ^ 2 = (∫ t in a..c, k t ^ 2) - (∫ t in a..c, k t) ^ 2 / (c - a) := by
    generalize hI : (∫ t in a..c, k t) = I
    have e : ∀ t, (k t - I / (c - a)) ^ 2 = k t ^ 2 - (2 * (I / (c - a)) * k t - (I / (c - a)) ^ 2) := fun t => by ring
    simp only [e]
    have i1 : IntervalIntegrable (fun t => k t ^ 2) volume a c := integrable_Icc (hk.pow 2) ha hc
    have i2 : IntervalIntegrable (fun t => 2 * (I / (c - a)) * k t) volume a c := integrable_Icc (continuousOn_const.mul hk) ha hc
    have i3 : IntervalIntegrable (fun _ => (I / (c - a)) ^ 2) volume a c := integrable_Icc continuousOn_const ha hc
    rw [intervalIntegral.integral_sub i1 (i2.sub i3), intervalIntegral.integral_sub i2 i3, intervalIntegral.integral_const_mul, hI,
      intervalIntegral.integral_const, smul_eq_mul]
    field_simp
    ring
  rw [h1, sub_nonneg, div_le_iff₀ hl] at h0
  linarith

end Verif.Optimal
