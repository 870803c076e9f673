import Verif.Adjoint.Spec
import Verif.Converge.Global
import Mathlib.Analysis.Calculus.MeanValue
import Mathlib.Analysis.Calculus.ContDiff.Comp
import Mathlib.Analysis.ODE.Gronwall

/-!
# Neighbouring solutions and the adjoint equation
-/

namespace Verif.Adjoint
open Set Metric Filter Topology Verif.Converge

variable {E : Type} [NormedAddCommGroup E] [NormedSpace ℝ E]

theorem continuous_partial {f : ℝ → E → E} (hf : ContDiff ℝ 1 fun z : ℝ × E => f z.1 z.2) : Continuous fun z : ℝ × E => fderiv ℝ (f z.1) z.2 := by
  have : ContDiff ℝ 0 fun z : ℝ × E => fderiv ℝ (f z.1) z.2 :=
    ContDiff.fderiv (f := fun (z : ℝ × E) (x : E) => f z.1 x) (g := fun z : ℝ × E => z.2) (n := 0)
      (hf.comp (by fun_prop : ContDiff ℝ 1 fun p : (ℝ × E) × E => (p.1.1, p.2))) contDiff_snd (by norm_num)
  exact this.continuous

theorem differentiable_slice {f : ℝ → E → E} (hf : ContDiff ℝ 1 fun z : ℝ × E => f z.1 z.2) (t : ℝ) : Differentiable ℝ (f t) :=
  (hf.comp (by fun_prop : ContDiff ℝ 1 fun x : E => (t, x))).differentiable (by norm_num)

omit [NormedSpace ℝ E] in
/-- The points at most `1` away from a solution. -/
theorem isCompact_tube [ProperSpace E] {y : ℝ → E} {a b : ℝ} (hy : ContinuousOn y (Icc a b)) :
    IsCompact (Icc a b ×ˢ cthickening 1 (y '' Icc a b)) := isCompact_Icc.prod (isCompact_Icc.image_of_continuousOn hy).cthickening

omit [NormedSpace ℝ E] in
theorem mem_tube {y : ℝ → E} {a b t : ℝ} {x : E} (ht : t ∈ Icc a b) (hx : ‖x - y t‖ ≤ 1) : (t, x) ∈ Icc a b ×ˢ cthickening 1 (y '' Icc a b) :=
  ⟨ht, mem_cthickening_of_dist_le x (y t) 1 _ (mem_image_of_mem y ht) (by rwa [dist_eq_norm])⟩

/-- The equations are Lipschitz near a solution. -/
theorem exists_lipschitz [ProperSpace E] {f : ℝ → E → E} (hf : ContDiff ℝ 1 fun z : ℝ × E => f z.1 z.2) {y : ℝ → E} {a b : ℝ} (hy : ContinuousOn y (Icc a b)) :
    ∃ C, 0 ≤ C ∧ ∀ t ∈ Icc a b, ∀ x, ‖x - y t‖ ≤ 1 → ‖f t x - f t (y t)‖ ≤ C * ‖x - y t‖ := by
  obtain ⟨C, hC⟩ := (isCompact_tube hy).exists_bound_of_continuousOn (continuous_partial hf).continuousOn
  refine ⟨max C 0, le_max_right _ _, fun t ht x hx => ?_⟩
  refine (convex_closedBall (y t) 1).norm_image_sub_le_of_norm_fderiv_le (𝕜 := ℝ) (f := f t) (fun x _ => differentiable_slice hf t x) (fun x hx => ?_) (by simp) (by simpa [dist_eq_norm] using hx)
  exact (hC (t, x) (mem_tube ht (by simpa [dist_eq_norm] using hx))).trans (le_max_left _ _)

/-- The derivative of the equations approximates them uniformly along a solution. -/
theorem uniform_derivative [ProperSpace E] {f : ℝ → E → E} (hf : ContDiff ℝ 1 fun z : ℝ × E => f z.1 z.2) {y : ℝ → E} {a b : ℝ} (hy : ContinuousOn y (Icc a b)) {ε : ℝ} (hε : 0 < ε) :
    ∃ η, 0 < η ∧ ∀ t ∈ Icc a b, ∀ x, ‖x - y t‖ ≤ η → ‖f t x - f t (y t) - fderiv ℝ (f t) (y t) (x - y t)‖ ≤ ε * ‖x - y t‖ := by
  have hu := (isCompact_tube hy).uniformContinuousOn_of_continuous (continuous_partial hf).continuousOn
  obtain ⟨δ, hδ, h⟩ := Metric.uniformContinuousOn_iff.1 hu ε hε
  refine ⟨min (δ / 2) 1, by positivity, fun t ht x hx => ?_⟩
  refine (convex_closedBall (y t) (min (δ / 2) 1)).norm_image_sub_le_of_norm_fderiv_le' (𝕜 := ℝ) (f := f t) (fun x _ => differentiable_slice hf t x) (fun x hx => ?_) (by simp; positivity)
    (by simpa [dist_eq_norm] using hx)
  rw [mem_closedBall, dist_eq_norm] at hx
  have := h (t, x) (mem_tube ht (hx.trans (min_le_right _ _))) (t, y t) (mem_tube ht (by simp)) (by
    rw [Prod.dist_eq, dist_self, dist_eq_norm]
    have := hx.trans (min_le_left _ _)
    simp only [max_lt_iff]
    exact ⟨hδ, by linarith⟩)
  rw [dist_eq_norm] at this
  exact this.le

/-- Solutions that start close stay close. -/
theorem exists_close_solutions [ProperSpace E] {f : ℝ → E → E} (hf : ContDiff ℝ 1 fun z : ℝ × E => f z.1 z.2) {y : ℝ → E} {a b : ℝ} (hy : Solves f a b y) :
    ∃ C η, 0 ≤ C ∧ 0 < η ∧ ∀ z, Solves f a b z → ‖z a - y a‖ ≤ η → ∀ t ∈ Icc a b, ‖z t - y t‖ ≤ C * ‖z a - y a‖ := by
  obtain ⟨C, hC0, hC⟩ := exists_lipschitz hf hy.continuousOn
  have hX : 0 < Real.exp (C * |b - a|) := Real.exp_pos _
  refine ⟨Real.exp (C * |b - a|), 1 / (2 * Real.exp (C * |b - a|)), hX.le, by positivity, fun z hz hle => ?_⟩
  have hd : ∀ t ∈ Icc a b, HasDerivWithinAt (fun t => z t - y t) (f t (z t) - f t (y t)) (Icc a b) t := fun t ht => (hz t ht).sub (hy t ht)
  have hcont : ContinuousOn (fun t => z t - y t) (Icc a b) := hz.continuousOn.sub hy.continuousOn
  have key : ∀ c ∈ Icc a b, (∀ t ∈ Ico a c, ‖z t - y t‖ ≤ 1) → ‖z c - y c‖ ≤ Real.exp (C * |b - a|) * ‖z a - y a‖ := by
    intro c hc h1
    have hs : Icc a c ⊆ Icc a b := Icc_subset_Icc le_rfl hc.2
    have := norm_le_gronwallBound_of_norm_deriv_right_le (f := fun t => z t - y t) (f' := fun t => f t (z t) - f t (y t)) (δ := ‖z a - y a‖) (K := C) (ε := 0) (a := a) (b := c)
      (hcont.mono hs) (fun t ht => (hd t (hs (Ico_subset_Icc_self ht))).mono_of_mem_nhdsWithin (Icc_mem_nhdsGE_of_mem ⟨ht.1, ht.2.trans_le hc.2⟩)) le_rfl
      (fun t ht => by rw [add_zero]; exact hC t (hs (Ico_subset_Icc_self ht)) _ (h1 t ht)) c ⟨hc.1, le_rfl⟩
    rw [gronwallBound_ε0] at this
    refine this.trans ?_
    rw [mul_comm]
    refine mul_le_mul_of_nonneg_right (Real.exp_le_exp.2 (mul_le_mul_of_nonneg_left ?_ hC0)) (norm_nonneg _)
    exact (by linarith [hc.2] : c - a ≤ b - a).trans (le_abs_self _)
  have hsmall : Real.exp (C * |b - a|) * ‖z a - y a‖ ≤ 1 / 2 := by
    calc Real.exp (C * |b - a|) * ‖z a - y a‖ ≤ Real.exp (C * |b - a|) * (1 / (2 * Real.exp (C * |b - a|))) := mul_le_mul_of_nonneg_left hle hX.le
      _ = 1 / 2 := by field_simp
  have hall : ∀ t ∈ Icc a b, ‖z t - y t‖ < 1 := by
    by_contra hne
    push Not at hne
    obtain ⟨t, ht, h1⟩ := hne
    have hS : IsCompact {t ∈ Icc a b | 1 ≤ ‖z t - y t‖} :=
      isCompact_Icc.of_isClosed_subset (hcont.norm.preimage_isClosed_of_isClosed isClosed_Icc isClosed_Ici) (fun t ht => ht.1)
    obtain ⟨c, hc, hmin⟩ := hS.exists_isLeast ⟨t, ht, h1⟩
    have := key c hc.1 fun s hs => by
      by_contra h
      exact absurd (hmin ⟨⟨hs.1, hs.2.le.trans hc.1.2⟩, (not_le.1 h).le⟩) (not_le.2 hs.2)
    have h2 : 1 ≤ ‖z c - y c‖ := hc.2
    linarith
  exact fun t ht => key t ht fun s hs => (hall s ⟨hs.1, hs.2.le.trans ht.2⟩).le

/-- Along the adjoint equation the pairing with a small deviation is constant up to terms of higher order. -/
theorem sweep_pairing [ProperSpace E] {f : ℝ → E → E} (hf : ContDiff ℝ 1 fun z : ℝ × E => f z.1 z.2) {y : ℝ → E} {a b : ℝ} (hy : Solves f a b y) {s u : ℝ} (hs : a ≤ s) (hsu : s ≤ u) (hu : u ≤ b)
    {α : ℝ → E →L[ℝ] ℝ} (hα : Sweeps f y s u α) {ε : ℝ} (hε : 0 < ε) :
    ∃ η, 0 < η ∧ ∀ z, Solves f a b z → ‖z a - y a‖ ≤ η → |α u (z u - y u) - α s (z s - y s)| ≤ ε * ‖z a - y a‖ := by
  obtain ⟨C, η, hC0, hη, hC⟩ := exists_close_solutions hf hy
  have hαc : ContinuousOn α (Icc s u) := fun t ht => (hα t ht).continuousWithinAt
  obtain ⟨A, hA⟩ := isCompact_Icc.exists_bound_of_continuousOn hαc
  have hsub : Icc s u ⊆ Icc a b := Icc_subset_Icc hs hu
  obtain ⟨δ, hδ, hD⟩ := uniform_derivative hf hy.continuousOn (ε := ε / ((|A| + 1) * (C + 1) * (u - s + 1))) (by have := sub_nonneg.2 hsu; positivity)
  refine ⟨min η (δ / (C + 1)), by positivity, fun z hz hle => ?_⟩
  have hclose := hC z hz (hle.trans (min_le_left _ _))
  have hr := norm_nonneg (z a - y a)
  have hsmall : ∀ t ∈ Icc a b, ‖z t - y t‖ ≤ δ := fun t ht => (hclose t ht).trans (by
    have h1 : ‖z a - y a‖ ≤ δ / (C + 1) := hle.trans (min_le_right _ _)
    rw [le_div_iff₀ (by positivity)] at h1
    nlinarith)
  have hder : ∀ t ∈ Icc s u, HasDerivWithinAt (fun t => α t (z t - y t)) (α t (f t (z t) - f t (y t) - fderiv ℝ (f t) (y t) (z t - y t))) (Icc s u) t := fun t ht => by
    have h0 : HasDerivWithinAt (fun t => z t - y t) (f t (z t) - f t (y t)) (Icc s u) t := ((hz t (hsub ht)).sub (hy t (hsub ht))).mono hsub
    have h1 := (hα t ht).clm_apply h0
    refine h1.congr_deriv ?_
    simp only [_root_.neg_apply, ContinuousLinearMap.comp_apply, map_sub]
    ring
  have := (convex_Icc s u).norm_image_sub_le_of_norm_hasDerivWithin_le (C := ε / (u - s + 1) * ‖z a - y a‖) hder (fun t ht => by
      refine ((α t).le_opNorm _).trans ?_
      have h1 : ‖α t‖ ≤ |A| + 1 := (hA t ht).trans ((le_abs_self A).trans (by linarith))
      have h2 := (hD t (hsub ht) _ (hsmall t (hsub ht))).trans (mul_le_mul_of_nonneg_left (hclose t (hsub ht)) (by have := sub_nonneg.2 hsu; positivity))
      have h3 : 0 < u - s + 1 := by linarith
      calc ‖α t‖ * ‖f t (z t) - f t (y t) - fderiv ℝ (f t) (y t) (z t - y t)‖ ≤ (|A| + 1) * (ε / ((|A| + 1) * (C + 1) * (u - s + 1)) * (C * ‖z a - y a‖)) :=
            mul_le_mul h1 h2 (norm_nonneg _) (by positivity)
        _ = ε / (u - s + 1) * (C / (C + 1)) * ‖z a - y a‖ := by field_simp
        _ ≤ ε / (u - s + 1) * 1 * ‖z a - y a‖ := by
            have : C / (C + 1) ≤ 1 := by rw [div_le_one (by positivity)]; linarith
            gcongr
        _ = ε / (u - s + 1) * ‖z a - y a‖ := by ring) (left_mem_Icc.2 hsu) (right_mem_Icc.2 hsu)
  rw [Real.norm_eq_abs] at this
  refine this.trans ?_
  rw [Real.norm_eq_abs, abs_of_nonneg (sub_nonneg.2 hsu)]
  have h3 : 0 < u - s + 1 := by linarith
  have h4 : (u - s) / (u - s + 1) ≤ 1 := by rw [div_le_one h3]; linarith
  calc ε / (u - s + 1) * ‖z a - y a‖ * (u - s) = (u - s) / (u - s + 1) * (ε * ‖z a - y a‖) := by field_simp
    _ ≤ 1 * (ε * ‖z a - y a‖) := mul_le_mul_of_nonneg_right h4 (by positivity)
    _ = ε * ‖z a - y a‖ := one_mul _

/-- The sum of the pairings at the times of a backward pass. -/
theorem backward_pairing [ProperSpace E] {f : ℝ → E → E} (hf : ContDiff ℝ 1 fun z : ℝ × E => f z.1 z.2) {y : ℝ → E} {a b : ℝ} (hy : Solves f a b y) {l : List (ℝ × (E →L[ℝ] ℝ))} {g : E →L[ℝ] ℝ}
    (hb : Backward f y l g) : ∀ t, l.head?.map Prod.fst = some t → (∀ p ∈ l, p.1 ∈ Icc a b) → l.Pairwise (fun p q => p.1 ≤ q.1) → ∀ ε, 0 < ε →
      ∃ η, 0 < η ∧ ∀ z, Solves f a b z → ‖z a - y a‖ ≤ η → |(l.map fun p => p.2 (z p.1 - y p.1)).sum - g (z t - y t)| ≤ ε * ‖z a - y a‖ := by
  induction hb with
  | last t ℓ =>
    intro t' h _ _ ε hε
    obtain rfl : t = t' := by simpa using h
    exact ⟨1, one_pos, fun z _ _ => by
      simp
      positivity⟩
  | @step t u ℓ ℓ' r α later sweep ih =>
    intro t' h hm hp ε hε
    obtain rfl : t = t' := by simpa using h
    obtain ⟨η, hη, h1⟩ := ih u rfl (fun p hp => hm p (List.mem_cons_of_mem _ hp)) hp.of_cons (ε / 2) (by positivity)
    have htu : t ≤ u := (List.pairwise_cons.1 hp).1 (u, ℓ') (by simp)
    obtain ⟨δ, hδ, h2⟩ := sweep_pairing hf hy (hm (t, ℓ) (by simp)).1 htu (hm (u, ℓ') (by simp)).2 sweep (ε := ε / 2) (by positivity)
    refine ⟨min η δ, by positivity, fun z hz hle => ?_⟩
    have h3 := h1 z hz (hle.trans (min_le_left _ _))
    have h4 := h2 z hz (hle.trans (min_le_right _ _))
    rw [List.map_cons, List.sum_cons, _root_.add_apply]
    generalize (List.map (fun p : ℝ × (E →L[ℝ] ℝ) => p.2 (z p.1 - y p.1)) ((u, ℓ') :: r)).sum = S at h3 ⊢
    have e : ℓ (z t - y t) + S - (ℓ (z t - y t) + α t (z t - y t)) = (S - α u (z u - y u)) + (α u (z u - y u) - α t (z t - y t)) := by ring
    change |ℓ (z t - y t) + S - (ℓ (z t - y t) + α t (z t - y t))| ≤ _
    rw [e]
    refine (abs_add_le _ _).trans ?_
    linarith

/-- The adjoint equation has a solution with any final value. -/
theorem exists_sweep [FiniteDimensional ℝ E] {f : ℝ → E → E} (hf : ContDiff ℝ 1 fun z : ℝ × E => f z.1 z.2) {y : ℝ → E} {s u : ℝ} (hsu : s ≤ u) (hy : ContinuousOn y (Icc s u)) (v : E →L[ℝ] ℝ) :
    ∃ α, Sweeps f y s u α ∧ α u = v := by
  have hA : ContinuousOn (fun t => fderiv ℝ (f t) (y t)) (Icc s u) := (continuous_partial hf).comp_continuousOn (continuousOn_id.prodMk hy)
  obtain ⟨C, hC⟩ := isCompact_Icc.exists_bound_of_continuousOn hA
  have hm : MapsTo (fun t : ℝ => s + u - t) (Icc s u) (Icc s u) := fun t ht => ⟨by linarith [ht.2], by linarith [ht.1]⟩
  have hb : ∀ t ∈ Icc s u, ∀ x : E →L[ℝ] ℝ, ‖x.comp (fderiv ℝ (f (s + u - t)) (y (s + u - t)))‖ ≤ |C| * ‖x‖ := fun t ht x => by
    refine (ContinuousLinearMap.opNorm_comp_le _ _).trans ?_
    rw [mul_comm]
    exact mul_le_mul_of_nonneg_right ((hC _ (hm ht)).trans (le_abs_self C)) (norm_nonneg _)
  obtain ⟨R, hR⟩ := bound_of_growth s u v |C|
  have : ProperSpace (E →L[ℝ] ℝ) := FiniteDimensional.proper ℝ _
  obtain ⟨β, hβ, hβa⟩ := exists_of_lipschitz (f := fun t x => x.comp (fderiv ℝ (f (s + u - t)) (y (s + u - t)))) hsu (z := v) (R := R) (N := |C| * (|R| + 1)) (L := ⟨|C|, abs_nonneg C⟩)
    (fun x => continuousOn_const.clm_comp (hA.comp (by fun_prop) hm))
    (fun t ht x hx => (hb t ht x).trans (mul_le_mul_of_nonneg_left (by
      have h2 : ‖x‖ ≤ R + 1 := by simpa using hx
      linarith [le_abs_self R]) (abs_nonneg C)))
    (fun t ht => LipschitzOnWith.of_dist_le_mul fun x _ x' _ => by
      rw [dist_eq_norm, dist_eq_norm, ← ContinuousLinearMap.sub_comp]
      exact hb t ht _)
    (fun c hc y hy hya t ht => hR c hc y _ hy hya (fun t ht => (hb t ⟨ht.1, ht.2.trans hc.2⟩ _).trans (by linarith [abs_nonneg C])) t ht)
  have hrev := hβ.reverse
  refine ⟨fun t => β (s + u - t), fun t ht => ?_, by simpa using hβa⟩
  have := hrev t ht
  simpa using this

theorem exists_backward [FiniteDimensional ℝ E] {f : ℝ → E → E} (hf : ContDiff ℝ 1 fun z : ℝ × E => f z.1 z.2) {y : ℝ → E} {a b : ℝ} (hy : ContinuousOn y (Icc a b)) :
    ∀ l : List (ℝ × (E →L[ℝ] ℝ)), l ≠ [] → (∀ p ∈ l, p.1 ∈ Icc a b) → l.Pairwise (fun p q => p.1 ≤ q.1) → ∃ g, Backward f y l g
  | [], h, _, _ => absurd rfl h
  | [(t, ℓ)], _, _, _ => ⟨ℓ, .last t ℓ⟩
  | (t, ℓ) :: (u, ℓ') :: r, _, hm, hp => by
    obtain ⟨g, hg⟩ := exists_backward hf hy ((u, ℓ') :: r) (by simp) (fun p hp => hm p (List.mem_cons_of_mem _ hp)) hp.of_cons
    have htu : t ≤ u := (List.pairwise_cons.1 hp).1 (u, ℓ') (by simp)
    obtain ⟨α, hα, rfl⟩ := exists_sweep hf htu (hy.mono (Icc_subset_Icc (hm (t, ℓ) (by simp)).1 (hm (u, ℓ') (by simp)).2)) g
    exact ⟨_, .step hg hα⟩

end Verif.Adjoint
