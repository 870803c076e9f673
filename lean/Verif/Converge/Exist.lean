import Verif.Converge.Lemmas
import Mathlib.Analysis.ODE.ExistUnique
import Mathlib.Analysis.ODE.Gronwall

/-!
# Solutions that stay bounded exist for all times
-/

namespace Verif.Converge
open Set Metric
open scoped NNReal

variable {E : Type} [NormedAddCommGroup E] [NormedSpace ℝ E]

theorem Solves.mono {f : ℝ → E → E} {a b c d : ℝ} {y : ℝ → E} (hy : Solves f a b y) (h1 : a ≤ c) (h2 : d ≤ b) : Solves f c d y := fun t ht =>
  (hy t ⟨h1.trans ht.1, ht.2.trans h2⟩).mono (Icc_subset_Icc h1 h2)

/-- Two solutions one after the other. -/
theorem Solves.glue {f : ℝ → E → E} {a c b : ℝ} {y y' : ℝ → E} (hac : a ≤ c) (hcb : c ≤ b) (hy : Solves f a c y) (hy' : Solves f c b y') (he : y c = y' c) :
    ∃ z, Solves f a b z ∧ z a = y a := by
  refine ⟨fun t => if t ≤ c then y t else y' t, ?_, if_pos hac⟩
  have e1 : ∀ t ∈ Icc a c, (if t ≤ c then y t else y' t) = y t := fun t ht => if_pos ht.2
  have e2 : ∀ t ∈ Icc c b, (if t ≤ c then y t else y' t) = y' t := by
    intro t ht
    by_cases h : t ≤ c
    · rw [if_pos h, le_antisymm h ht.1, he]
    · rw [if_neg h]
  intro t ht
  rw [← Icc_union_Icc_eq_Icc hac hcb]
  refine HasDerivWithinAt.union ?_ ?_
  · by_cases h : t ∈ Icc a c
    · have := (hy t h).congr e1 (e1 t h)
      rwa [← e1 t h] at this
    · exact HasFDerivWithinAt.of_notMem_closure (by rwa [isClosed_Icc.closure_eq])
  · by_cases h : t ∈ Icc c b
    · have := (hy' t h).congr e2 (e2 t h)
      rwa [← e2 t h] at this
    · exact HasFDerivWithinAt.of_notMem_closure (by rwa [isClosed_Icc.closure_eq])

/-- If all solutions with a given initial value stay in a ball, and the equation is bounded and Lipschitz near it, there is one up to the end. -/
theorem exists_of_lipschitz [ProperSpace E] [CompleteSpace E] {f : ℝ → E → E} {a b : ℝ} (hab : a ≤ b) {z : E} {R N : ℝ} {L : ℝ≥0}
    (hc : ∀ x, ContinuousOn (fun t => f t x) (Icc a b)) (hN : ∀ t ∈ Icc a b, ∀ x ∈ closedBall (0 : E) (R + 1), ‖f t x‖ ≤ N) (hL : ∀ t ∈ Icc a b, LipschitzOnWith L (f t) (closedBall (0 : E) (R + 1)))
    (hR : ∀ c ∈ Icc a b, ∀ y, Solves f a c y → y a = z → ∀ t ∈ Icc a c, ‖y t‖ ≤ R) : ∃ y, Solves f a b y ∧ y a = z := by
  have hN0 : 0 ≤ max N 0 := le_max_right _ _
  have step : ∀ c ∈ Icc a b, (∃ y, Solves f a c y ∧ y a = z) → ∃ y, Solves f a (min (c + 1 / (max N 0 + 1)) b) y ∧ y a = z := by
    rintro c hca ⟨y, hy, hya⟩
    have hcm : c ≤ min (c + 1 / (max N 0 + 1)) b := le_min (by have : 0 < 1 / (max N 0 + 1) := by positivity
                                                               linarith) hca.2
    have hyc := hR c hca y hy hya c ⟨hca.1, le_rfl⟩
    have hball : closedBall (y c) (1 : ℝ≥0) ⊆ closedBall (0 : E) (R + 1) := by
      intro x hx
      rw [mem_closedBall, dist_zero_right]
      rw [mem_closedBall, dist_eq_norm] at hx
      have : x = (x - y c) + y c := by abel
      rw [this]
      refine (norm_add_le _ _).trans ?_
      have : ‖x - y c‖ ≤ 1 := by simpa using hx
      linarith
    have hsub : Icc c (min (c + 1 / (max N 0 + 1)) b) ⊆ Icc a b := Icc_subset_Icc hca.1 (min_le_right _ _)
    have hp : IsPicardLindelof f (⟨c, le_rfl, hcm⟩ : Icc c (min (c + 1 / (max N 0 + 1)) b)) (y c) 1 0 ⟨max N 0, hN0⟩ L := by
      refine ⟨fun t ht => ?_, fun x hx => ?_, fun t ht x hx => ?_, ?_⟩
      · exact (hL t (hsub ht)).mono hball
      · exact (hc x).mono hsub
      · exact (hN t (hsub ht) x (hball hx)).trans (le_max_left _ _)
      · have h1 : max (min (c + 1 / (max N 0 + 1)) b - c) (c - c) ≤ 1 / (max N 0 + 1) := by
          refine max_le ?_ (by simp; positivity)
          have := min_le_left (c + 1 / (max N 0 + 1)) b
          linarith
        have h2 := mul_le_mul_of_nonneg_left h1 hN0
        have h3 : max N 0 * (1 / (max N 0 + 1)) ≤ 1 := by
          rw [mul_one_div, div_le_one (by positivity)]
          linarith
        have h4 := h2.trans h3
        rw [NNReal.coe_one, NNReal.coe_zero, sub_zero]
        exact h4
    obtain ⟨y', hy'0, hy'⟩ := hp.exists_eq_forall_mem_Icc_hasDerivWithinAt₀
    obtain ⟨x, hx, hx0⟩ := Solves.glue hca.1 hcm hy hy' hy'0.symm
    exact ⟨x, hx, hx0.trans hya⟩
  have all : ∀ n : ℕ, ∃ y, Solves f a (min (a + n * (1 / (max N 0 + 1))) b) y ∧ y a = z := by
    intro n
    induction n with
    | zero =>
      refine ⟨fun _ => z, fun t ht => ?_, rfl⟩
      have : min (a + ((0 : ℕ) : ℝ) * (1 / (max N 0 + 1))) b = a := by simpa using hab
      rw [this] at ht ⊢
      rw [Icc_self]
      exact HasFDerivWithinAt.of_subsingleton subsingleton_singleton
    | succ n ih =>
      have hpos : 0 ≤ (n : ℝ) * (1 / (max N 0 + 1)) := by positivity
      have := step _ ⟨le_min (by linarith) hab, min_le_right _ _⟩ ih
      obtain ⟨y, hy, h0⟩ := this
      refine ⟨y, hy.mono le_rfl ?_, h0⟩
      push_cast
      refine le_min ?_ (min_le_right _ _)
      rcases le_total (a + (n : ℝ) * (1 / (max N 0 + 1))) b with h | h
      · rw [min_eq_left h]
        refine (min_le_left _ _).trans (le_of_eq ?_)
        ring
      · rw [min_eq_right h]
        refine (min_le_right _ _).trans ?_
        have : 0 < 1 / (max N 0 + 1) := by positivity
        linarith
  obtain ⟨n, hn⟩ := exists_nat_ge ((b - a) * (max N 0 + 1))
  obtain ⟨y, hy, h0⟩ := all n
  refine ⟨y, ?_, h0⟩
  have : b ≤ a + (n : ℝ) * (1 / (max N 0 + 1)) := by
    rw [mul_one_div]
    have : b - a ≤ (n : ℝ) / (max N 0 + 1) := by rwa [le_div_iff₀ (by positivity)]
    linarith
  rwa [min_eq_right this] at hy

/-- The same for a continuously differentiable equation. -/
theorem exists_of_bound [ProperSpace E] [CompleteSpace E] {f : ℝ → E → E} (hf : ContDiff ℝ 1 fun z : ℝ × E => f z.1 z.2) {a b : ℝ} (hab : a ≤ b) {z : E} {R : ℝ}
    (hR : ∀ c ∈ Icc a b, ∀ y, Solves f a c y → y a = z → ∀ t ∈ Icc a c, ‖y t‖ ≤ R) : ∃ y, Solves f a b y ∧ y a = z := by
  have hS : IsCompact (Icc a b ×ˢ closedBall (0 : E) (R + 1)) := isCompact_Icc.prod (isCompact_closedBall _ _)
  obtain ⟨N, hN⟩ := hS.exists_bound_of_continuousOn hf.continuous.continuousOn
  obtain ⟨L, hL⟩ := (hf.locallyLipschitz.locallyLipschitzOn (s := Icc a b ×ˢ closedBall (0 : E) (R + 1))).exists_lipschitzOnWith_of_compact hS
  refine exists_of_lipschitz hab (N := N) (L := L) (fun x => (hf.continuous.comp (by fun_prop : Continuous fun t : ℝ => (t, x))).continuousOn) (fun t ht x hx => hN (t, x) ⟨ht, hx⟩)
    (fun t ht => LipschitzOnWith.of_dist_le_mul fun x hx x' hx' => ?_) hR
  have := hL.dist_le_mul (t, x) ⟨ht, hx⟩ (t, x') ⟨ht, hx'⟩
  simpa [Prod.dist_eq] using this

/-- A linear bound on the speed bounds the solution. -/
theorem bound_of_growth (a b : ℝ) (v : E) (C : ℝ) : ∃ R : ℝ, ∀ c ∈ Icc a b, ∀ (y y' : ℝ → E), (∀ t ∈ Icc a c, HasDerivWithinAt y (y' t) (Icc a c) t) → y a = v →
    (∀ t ∈ Icc a c, ‖y' t‖ ≤ C * ‖y t‖ + C) → ∀ t ∈ Icc a c, ‖y t‖ ≤ R := by
  have hcont : Continuous fun t => gronwallBound ‖v‖ C C t := continuous_iff_continuousAt.2 fun x => (hasDerivAt_gronwallBound ‖v‖ C C x).continuousAt
  obtain ⟨R, hR⟩ := (isCompact_Icc (a := (0 : ℝ)) (b := b - a)).exists_bound_of_continuousOn hcont.continuousOn
  refine ⟨R, fun c hc y y' hy hya hg t ht => ?_⟩
  have h1 := norm_le_gronwallBound_of_norm_deriv_right_le (f := y) (f' := y') (δ := ‖v‖) (K := C) (ε := C) (a := a) (b := c)
    (fun t ht => (hy t ht).continuousWithinAt) (fun t ht => (hy t (Ico_subset_Icc_self ht)).mono_of_mem_nhdsWithin (Icc_mem_nhdsGE_of_mem ht)) (by rw [hya])
    (fun t ht => hg t (Ico_subset_Icc_self ht)) t ht
  have h2 := hR (t - a) ⟨by linarith [ht.1], by linarith [ht.2, hc.2]⟩
  exact h1.trans ((le_abs_self _).trans h2)

end Verif.Converge
