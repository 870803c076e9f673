import Verif.Order.Spec
import Verif.Converge.Lemmas

/-!
# Local errors from derivatives at step size zero
-/

namespace Verif.Order
open Set Metric Verif Verif.Converge

variable {E : Type} [NormedAddCommGroup E] [NormedSpace ℝ E]

/-- A function whose first `m` derivatives vanish at 0 and whose next one is bounded is small. -/
theorem chain_small {H C : ℝ} (m : ℕ) (e : ℕ → ℝ → E) (hd : ∀ k < m, ∀ s ∈ Icc 0 H, HasDerivWithinAt (e k) (e (k + 1) s) (Icc 0 H) s) (h0 : ∀ k < m, e k 0 = 0)
    (hC : ∀ s ∈ Icc 0 H, ‖e m s‖ ≤ C) : ∀ s ∈ Icc 0 H, ‖e 0 s‖ ≤ C * s ^ m := by
  induction m generalizing e with
  | zero => intro s hs; simpa using hC s hs
  | succ m ih =>
    intro s hs
    have h1 := ih (fun k => e (k + 1)) (fun k hk => hd (k + 1) (by omega)) (fun k hk => h0 (k + 1) (by omega)) hC
    have hC0 : 0 ≤ C := (norm_nonneg _).trans (hC s hs)
    have hsub : Icc 0 s ⊆ Icc 0 H := Icc_subset_Icc le_rfl hs.2
    have h2 := Convex.norm_image_sub_le_of_norm_hasDerivWithin_le (f := e 0) (f' := e 1) (s := Icc 0 s) (C := C * s ^ m)
      (fun r hr => (hd 0 (by omega) r (hsub hr)).mono hsub)
      (fun r hr => (h1 r (hsub hr)).trans (mul_le_mul_of_nonneg_left (pow_le_pow_left₀ hr.1 hr.2 m) hC0))
      (convex_Icc 0 s) (left_mem_Icc.2 hs.1) (right_mem_Icc.2 hs.1)
    rw [h0 0 (by omega), sub_zero, sub_zero, Real.norm_of_nonneg hs.1] at h2
    rw [pow_succ, ← mul_assoc]
    exact h2

/-- The derivatives of a solution of `y' = g(y)`, as functions of its value. -/
noncomputable def lie (g : E → E) : ℕ → E → E
  | 0 => id
  | n + 1 => fun x => fderiv ℝ (lie g n) x (g x)

theorem contDiff_lie {g : E → E} (m k : ℕ) (hg : ContDiff ℝ (m + k : ℕ) g) : ContDiff ℝ m (lie g k) := by
  induction k generalizing m with
  | zero => exact contDiff_id
  | succ k ih =>
    have h1 : ContDiff ℝ (m + 1 : ℕ) (lie g k) := ih (m + 1) (by rw [show m + 1 + k = m + (k + 1) by omega]; exact hg)
    have h2 : ContDiff ℝ m (fderiv ℝ (lie g k)) := h1.fderiv_right (by norm_cast)
    exact h2.clm_apply (hg.of_le (by norm_cast; omega))

theorem hasDeriv_lie {g : E → E} {p k : ℕ} (hg : ContDiff ℝ (p + 1 : ℕ) g) (hk : k ≤ p) {y : ℝ → E} {t : ℝ} {S : Set ℝ} (hy : HasDerivWithinAt y (g (y t)) S t) :
    HasDerivWithinAt (fun s => lie g k (y s)) (lie g (k + 1) (y t)) S t := by
  have h1 : ContDiff ℝ (1 : ℕ) (lie g k) := contDiff_lie 1 k (hg.of_le (by norm_cast; omega))
  exact ((h1.differentiable (by norm_num)) (y t)).hasFDerivAt.comp_hasDerivWithinAt t hy

/-- The derivative with respect to the step size. -/
noncomputable def dh (S : ℝ × E → E) : ℝ × E → E := fun z => fderiv ℝ S z (1, 0)

theorem contDiff_dh {S : ℝ × E → E} (m k : ℕ) (hS : ContDiff ℝ (m + k : ℕ) S) : ContDiff ℝ m (dh^[k] S) := by
  induction k generalizing m with
  | zero => exact hS
  | succ k ih =>
    rw [Function.iterate_succ_apply']
    have h1 : ContDiff ℝ (m + 1 : ℕ) (dh^[k] S) := ih (m + 1) (by rw [show m + 1 + k = m + (k + 1) by omega]; exact hS)
    have h2 : ContDiff ℝ m (fderiv ℝ (dh^[k] S)) := h1.fderiv_right (by norm_cast)
    exact h2.clm_apply contDiff_const

theorem hasDerivAt_dh {S : ℝ × E → E} {h : ℝ} {x : E} (hS : DifferentiableAt ℝ S (h, x)) : HasDerivAt (fun r => S (r, x)) (dh S (h, x)) h := by
  have h1 : HasDerivAt (fun r : ℝ => (r, x)) ((1 : ℝ), (0 : E)) h := (hasDerivAt_id h).prodMk (hasDerivAt_const h x)
  exact hS.hasFDerivAt.comp_hasDerivAt h h1

/-- The derivatives with respect to the step size, computed one after the other. -/
theorem dh_eq {S : ℝ × E → E} {x : E} {p : ℕ} (hS : ContDiff ℝ (p + 1 : ℕ) S) (u : ℕ → ℝ → E) (h0 : ∀ h, S (h, x) = u 0 h) (hd : ∀ k < p, ∀ h, HasDerivAt (u k) (u (k + 1) h) h)
    (k : ℕ) (hk : k ≤ p) : ∀ h, (dh^[k] S) (h, x) = u k h := by
  induction k with
  | zero => exact h0
  | succ k ih =>
    intro h
    have ih := ih (by omega)
    rw [Function.iterate_succ_apply']
    have hc : ContDiff ℝ (1 : ℕ) (dh^[k] S) := contDiff_dh 1 k (hS.of_le (by norm_cast; omega))
    have h1 := hasDerivAt_dh (x := x) (h := h) ((hc.differentiable (by norm_num)) (h, x))
    have e : (fun r => (dh^[k] S) (r, x)) = u k := funext ih
    rw [e] at h1
    exact h1.unique (hd k (by omega) h)

/-- The local error of a step function that has the right derivatives at step size 0. -/
theorem local_order [ProperSpace E] {g : E → E} {p : ℕ} (hg : ContDiff ℝ (p + 1 : ℕ) g) {S : ℝ × E → E} (hS : ContDiff ℝ (p + 1 : ℕ) S) (h0 : ∀ x, ∀ k ≤ p, (dh^[k] S) (0, x) = lie g k x)
    {a b : ℝ} {y : ℝ → E} (hy : Solves (fun _ => g) a b y) :
    ∃ C, 0 ≤ C ∧ ∀ t t', a ≤ t → t ≤ t' → t' ≤ b → t' - t ≤ 1 → ‖y t' - S (t' - t, y t)‖ ≤ C * (t' - t) ^ (p + 1) := by
  have hyc := hy.continuousOn
  have hK : IsCompact (y '' Icc a b) := isCompact_Icc.image_of_continuousOn hyc
  have c1 : Continuous (lie g (p + 1)) := (contDiff_lie 0 (p + 1) (by simpa using hg)).continuous
  have c2 : Continuous (dh^[p + 1] S) := (contDiff_dh 0 (p + 1) (by simpa using hS)).continuous
  obtain ⟨C1, hC1⟩ := hK.exists_bound_of_continuousOn c1.continuousOn
  obtain ⟨C2, hC2⟩ := (isCompact_Icc.prod hK : IsCompact (Icc (0 : ℝ) 1 ×ˢ (y '' Icc a b))).exists_bound_of_continuousOn c2.continuousOn
  refine ⟨max (C1 + C2) 0, le_max_right _ _, fun t t' ht htt ht' h1 => ?_⟩
  have htm : y t ∈ y '' Icc a b := mem_image_of_mem y ⟨ht, htt.trans ht'⟩
  have hin : ∀ s ∈ Icc 0 (t' - t), t + s ∈ Icc a b := fun s hs => ⟨by linarith [hs.1], by linarith [hs.2]⟩
  have key := chain_small (H := t' - t) (C := C1 + C2) (p + 1) (fun k s => lie g k (y (t + s)) - (dh^[k] S) (s, y t)) (by
    intro k hk s hs
    have hsh : HasDerivWithinAt (fun s => t + s) 1 (Icc 0 (t' - t)) s := (hasDerivWithinAt_id s _).const_add t
    have d1 : HasDerivWithinAt (fun s => y (t + s)) (g (y (t + s))) (Icc 0 (t' - t)) s := by
      have := (hy (t + s) (hin s hs)).scomp s hsh hin
      rw [one_smul] at this
      exact this
    have d2 := hasDeriv_lie (k := k) hg (by omega) d1
    have hc : ContDiff ℝ (1 : ℕ) (dh^[k] S) := contDiff_dh 1 k (hS.of_le (by norm_cast; omega))
    have d3 := (hasDerivAt_dh (x := y t) (h := s) ((hc.differentiable (by norm_num)) (s, y t))).hasDerivWithinAt (s := Icc 0 (t' - t))
    rw [← Function.iterate_succ_apply' dh] at d3
    exact d2.sub d3) (by
    intro k hk
    rw [add_zero, h0 _ k (by omega), sub_self]) (by
    intro s hs
    exact (norm_sub_le _ _).trans (add_le_add (hC1 _ (mem_image_of_mem y (hin s hs))) (hC2 (s, y t) ⟨⟨hs.1, hs.2.trans h1⟩, htm⟩)))
  have := key (t' - t) ⟨by linarith, le_rfl⟩
  dsimp only [lie, Function.iterate_zero, id] at this
  rw [add_sub_cancel] at this
  exact this.trans (mul_le_mul_of_nonneg_right (le_max_left _ _) (pow_nonneg (by linarith) _))

end Verif.Order
