import Verif.Optimal.Lemmas
import Verif.Converge.Global

/-!
# States driven by given parameters exist, and so do solutions of the adjoint equation
-/

namespace Verif.Optimal
open Set Metric MeasureTheory Verif.Shooting Verif.Converge
open scoped NNReal

variable {ι K P : Type} [Fintype ι] [Fintype K] [Fintype P]

/-- C82: parameters that vary continuously with time move the particles from every start, for the whole interval. -/
theorem C82_driven {f : Rhs (ι × K) P} (ha : AffineInParams f) (hs : SmoothRhs 2 f) (hg : Growth f) {θ : ℝ → P → ℝ} {a b : ℝ} (hab : a ≤ b) (hθ : ∀ r, ContinuousOn (fun t => θ t r) (Icc a b))
    (x : ι × K → ℝ) : ∃ q, Driven f θ q a b ∧ q a = x := by
  have hs' : SmoothRhs (1 + 1) f := hs
  have hθ' : ContinuousOn θ (Icc a b) := continuousOn_pi.2 hθ
  obtain ⟨A, hA⟩ := isCompact_Icc.exists_bound_of_continuousOn hθ'
  obtain ⟨C, hC0, hC⟩ := hg.uniform ha A
  have hAr : ∀ t ∈ Icc a b, ∀ r, |θ t r| ≤ A := fun t ht r => (norm_le_pi_norm (θ t) r).trans (hA t ht)
  obtain ⟨R, hR⟩ := bound_of_growth a b x C
  obtain ⟨C1, hC1, h0, h1⟩ := exists_bounds_rhs hs' (R + 1)
  have hcont : ∀ x, ContinuousOn (fun t => f (θ t) x) (Icc a b) := fun x => by
    refine continuousOn_pi.2 fun j => ?_
    have e : (fun t => f (θ t) x j) = fun t => f 0 x j + ∑ r, coeff f x j r * θ t r := by
      funext t
      exact affine_coeff ha _ _ _
    rw [e]
    exact continuousOn_const.add (continuousOn_finsetSum _ fun r _ => continuousOn_const.mul (hθ r))
  obtain ⟨q, hq, hqa⟩ := exists_of_lipschitz (f := fun t x => f (θ t) x) hab (z := x) (R := R) (N := C * (|R| + 1) + C) (L := ⟨C1 * (1 + Fintype.card P * |A|), by positivity⟩) hcont
    (fun t ht y hy => (hC (θ t) (hAr t ht) y).trans (by
      have : ‖y‖ ≤ |R| + 1 := by
        have h2 : ‖y‖ ≤ R + 1 := by simpa using hy
        linarith [le_abs_self R]
      have := mul_le_mul_of_nonneg_left this hC0
      linarith))
    (fun t ht => LipschitzOnWith.of_dist_le_mul fun y hy y' hy' => by
      rw [dist_eq_norm, dist_eq_norm]
      have h2 := speed_difference ha hC1 h0 h1 (θ t) (θ t) (x := y') (y := y) (by simpa using hy') (by simpa using hy)
      rw [sub_self, norm_zero, mul_zero, add_zero] at h2
      refine h2.trans (mul_le_mul_of_nonneg_right ?_ (norm_nonneg _))
      change C1 * (1 + Fintype.card P * ‖θ t‖) ≤ C1 * (1 + Fintype.card P * |A|)
      have := (hA t ht).trans (le_abs_self A)
      gcongr)
    (fun c hc y hy hya t ht => hR c hc y _ hy hya (fun t ht => hC _ (hAr t ⟨ht.1, ht.2.trans hc.2⟩) _) t ht)
  exact ⟨q, ⟨hθ, fun t ht j => hasDerivWithinAt_pi.1 (hq t ht) j⟩, hqa⟩

theorem costGrad_sub (f : Rhs (ι × K) P) (θ : P → ℝ) (q p p' : ι × K → ℝ) : costGrad f θ q p - costGrad f θ q p' = costGrad f θ q (p - p') := by
  funext k
  simp only [costGrad, Pi.sub_apply, sub_mul, Finset.sum_sub_distrib]
  ring

theorem continuous_costGrad {f : Rhs (ι × K) P} (hs : SmoothRhs (1 + 1) f) {S : Set ℝ} {θ : ℝ → P → ℝ} {q : ℝ → ι × K → ℝ} (hθ : ContinuousOn θ S) (hq : ContinuousOn q S) (p : ι × K → ℝ) :
    ContinuousOn (fun t => costGrad f (θ t) (q t) p) S := by
  refine continuousOn_pi.2 fun k => (continuousOn_finsetSum _ fun j _ => continuousOn_const.mul (ContinuousOn.add ?_ (continuousOn_finsetSum _ fun r _ => ContinuousOn.mul ?_ ?_))).neg
  · exact (contDiff_autograd (n := 1) (hs 0 j) k).continuous.comp_continuousOn hq
  · exact (contDiff_autograd (n := 1) (hs.coeff j r) k).continuous.comp_continuousOn hq
  · exact continuousOn_pi.1 hθ r

/-- The adjoint equation has a solution with any final value. -/
theorem exists_adjoint {f : Rhs (ι × K) P} (hs : SmoothRhs (1 + 1) f) {θ : ℝ → P → ℝ} {q : ℝ → ι × K → ℝ} {a b : ℝ} (hab : a ≤ b) (hq : Driven f θ q a b) (v : ι × K → ℝ) :
    ∃ p, Adjoint f θ q p a b ∧ p b = v := by
  obtain ⟨A, hA⟩ := isCompact_Icc.exists_bound_of_continuousOn hq.continuous_params
  obtain ⟨B, hB⟩ := isCompact_Icc.exists_bound_of_continuousOn hq.continuous_state
  obtain ⟨C, hC0, hC⟩ := costGrad_bound hs A B
  have hm : MapsTo (fun t : ℝ => a + b - t) (Icc a b) (Icc a b) := fun s hs => ⟨by linarith [hs.2], by linarith [hs.1]⟩
  have hb : ∀ t ∈ Icc a b, ∀ x, ‖- costGrad f (θ (a + b - t)) (q (a + b - t)) x‖ ≤ C * ‖x‖ := fun t ht x => by
    rw [norm_neg]
    exact hC _ (fun r => (norm_le_pi_norm _ r).trans (hA _ (hm ht))) _ (hB _ (hm ht)) x
  obtain ⟨R, hR⟩ := bound_of_growth a b v C
  obtain ⟨y, hy, hya⟩ := exists_of_lipschitz (f := fun t x => - costGrad f (θ (a + b - t)) (q (a + b - t)) x) hab (z := v) (R := R) (N := C * (|R| + 1)) (L := ⟨C, hC0⟩)
    (fun x => ((continuous_costGrad hs hq.continuous_params hq.continuous_state x).comp (by fun_prop) hm).neg)
    (fun t ht x hx => (hb t ht x).trans (mul_le_mul_of_nonneg_left (by
      have h2 : ‖x‖ ≤ R + 1 := by simpa using hx
      linarith [le_abs_self R]) hC0))
    (fun t ht => LipschitzOnWith.of_dist_le_mul fun x _ x' _ => by
      rw [dist_eq_norm, dist_eq_norm]
      have e : - costGrad f (θ (a + b - t)) (q (a + b - t)) x - - costGrad f (θ (a + b - t)) (q (a + b - t)) x' = - costGrad f (θ (a + b - t)) (q (a + b - t)) (x - x') := by
        rw [← costGrad_sub]
        abel
      rw [e]
      exact hb t ht _)
    (fun c hc y hy hya t ht => hR c hc y _ hy hya (fun t ht => (hb t ⟨ht.1, ht.2.trans hc.2⟩ _).trans (by linarith)) t ht)
  have hrev := hy.reverse
  refine ⟨fun t => y (a + b - t), fun t ht => ?_, by simpa using hya⟩
  have := hrev t ht
  simpa using this

end Verif.Optimal
