import Verif.Order.Forward

/-!
# C94: the norm penalty
-/

namespace Verif.Order
open Set Verif Verif.Flow Verif.Whole Verif.Evolution Verif.Models Verif.Shooting Verif.Converge

variable {ι β K K' P : Type} [Fintype ι] [Fintype β] [Fintype K] [Fintype K'] [Fintype P]

/-- A differentiable quantity of a numerical solution is as accurate as the solution. -/
theorem observable_order {fld : ℝ → Sys2 ι β K K' → Sys2 ι β K K'} (hf : ContDiff ℝ 5 fun z : ℝ × Sys2 ι β K K' => fld z.1 z.2) {g : Sys2 ι β K K' → ℝ} (hg : ContDiff ℝ 1 g) {T : Tableau} {p : ℕ}
    (hT : HasOrder T p) {a b : ℝ} {y : ℝ → Sys2 ι β K K'} (hy : Solves fld a b y) : ∃ C h₀ : ℝ, 0 ≤ C ∧ 0 < h₀ ∧ ∀ h, 0 < h → h ≤ h₀ → ∀ (G : List ℝ → List ℝ) (ts : List ℝ),
      (a :: ts).Pairwise (· < ·) → (∀ τ ∈ a :: ts, τ ≤ b) → Suits h G a ts →
      ∃ ys, runSys fld (solver T G (a :: ts)) [y a] = .ok ys ∧
        List.Forall₂ (fun Y τ => |g Y - g (y τ)| ≤ C * (h ^ p + h ^ 2) ∧ (τ ∈ G (a :: ts) → |g Y - g (y τ)| ≤ C * h ^ p)) ys (a :: ts) := by
  obtain ⟨C, h₀, hC, hp, key⟩ := C94_converge hf hT hy
  have hcont : ContinuousOn y (Icc a b) := fun t ht => (hy t ht).continuousWithinAt
  obtain ⟨R, hR⟩ := isCompact_Icc.exists_bound_of_continuousOn hcont
  have hcb : IsCompact (Metric.closedBall (0 : Sys2 ι β K K') (R + C * (h₀ ^ p + h₀ ^ 2))) := isCompact_closedBall _ _
  obtain ⟨M, hM⟩ := hcb.exists_bound_of_continuousOn (hg.continuous_fderiv one_ne_zero).continuousOn
  refine ⟨|M| * C, h₀, by positivity, hp, fun h hh hle G ts hinc hts hs => ?_⟩
  obtain ⟨ys, e1, e2⟩ := key h hh hle G ts hinc hts hs
  refine ⟨ys, e1, ?_⟩
  have hge : ∀ τ ∈ a :: ts, a ≤ τ := by
    intro τ hτ
    rcases List.mem_cons.1 hτ with rfl | h'
    · exact le_rfl
    · exact ((List.pairwise_cons.1 hinc).1 τ h').le
  rw [List.forall₂_iff_get] at e2 ⊢
  refine ⟨e2.1, fun i hi hi' => ?_⟩
  have hτ := List.get_mem (a :: ts) ⟨i, hi'⟩
  have h1 := e2.2 i hi hi'
  generalize (a :: ts).get ⟨i, hi'⟩ = τ at hτ h1 ⊢
  generalize ys.get ⟨i, hi⟩ = Y at h1 ⊢
  have hy' := hR τ ⟨hge τ hτ, hts τ hτ⟩
  have hCh : C * (h ^ p + h ^ 2) ≤ C * (h₀ ^ p + h₀ ^ 2) := mul_le_mul_of_nonneg_left (by gcongr) hC
  have m1 : y τ ∈ Metric.closedBall (0 : Sys2 ι β K K') (R + C * (h₀ ^ p + h₀ ^ 2)) := by
    rw [mem_closedBall_zero_iff]
    have : 0 ≤ C * (h₀ ^ p + h₀ ^ 2) := by positivity
    linarith
  have m2 : Y ∈ Metric.closedBall (0 : Sys2 ι β K K') (R + C * (h₀ ^ p + h₀ ^ 2)) := by
    rw [mem_closedBall_zero_iff]
    have e : Y = y τ + (Y - y τ) := by abel
    rw [e]
    exact (norm_add_le _ _).trans (by linarith [h1.1])
  have hle := (convex_closedBall (0 : Sys2 ι β K K') (R + C * (h₀ ^ p + h₀ ^ 2))).norm_image_sub_le_of_norm_fderiv_le (𝕜 := ℝ) (f := g) (C := |M|)
    (fun x _ => hg.differentiable one_ne_zero x) (fun x hx => (hM x hx).trans (le_abs_self M)) m1 m2
  rw [Real.norm_eq_abs] at hle
  rw [mul_assoc, mul_assoc]
  exact ⟨hle.trans (mul_le_mul_of_nonneg_left h1.1 (abs_nonneg M)), fun hm => hle.trans (mul_le_mul_of_nonneg_left (h1.2 hm) (abs_nonneg M))⟩

/-- C94: the norm penalty at the particles computed by a forward pass with a method of order `m`, at a requested time of the grid, is the norm penalty of the initial particles up to a constant times
`h ^ m`, at the other requested times up to a constant times `h ^ m + h ^ 2`. -/
theorem C94_norm_penalty [Nonempty ι] {f : Class K P} (hf : Regular f) (hsf : Smooth f) (w : P → Option ℝ) (hw : ∀ r, 0 < weight w r) (ρ : ℝ → (P → ℝ) × (P → ℝ)) {T : Tableau} {m : ℕ}
    (hT : HasOrder T m) {a b : ℝ} (hab : a ≤ b) (z : Sys ι β K) : ∃ C h₀ : ℝ, 0 ≤ C ∧ 0 < h₀ ∧ ∀ h, 0 < h → h ≤ h₀ → ∀ (G : List ℝ → List ℝ) (ts : List ℝ),
      (a :: ts).Pairwise (· < ·) → (∀ τ ∈ a :: ts, τ ≤ b) → Suits h G a ts →
      ∃ ys, runSys (Evolution.field f (Evolution.autodiff f w ρ)) (solver T G (a :: ts)) [z] = .ok ys ∧ List.Forall₂ (fun Y τ =>
        |kineticEnergy w (directParameters (f ι) w 0 Y.1 Y.2.1) - kineticEnergy w (directParameters (f ι) w 0 z.1 z.2.1)| ≤ C * (h ^ m + h ^ 2) ∧
        (τ ∈ G (a :: ts) → |kineticEnergy w (directParameters (f ι) w 0 Y.1 Y.2.1) - kineticEnergy w (directParameters (f ι) w 0 z.1 z.2.1)| ≤ C * h ^ m)) ys (a :: ts) := by
  have hw' : ∀ r, weight w r ≠ 0 := fun r => (hw r).ne'
  obtain ⟨y, hy, hya, _⟩ := C69_global hf w hw ρ hab z
  have hC := contDiff_autodiff (β := β) (n := 5) (hf.linear ι).affine (smooth_five hsf ι) (hf.linear β).affine (smooth_five hsf β).less w hw' ρ
  have hθ : ContDiff ℝ 1 fun z : Sys ι β K => directParameters (f ι) w 0 z.1 z.2.1 :=
    contDiff_directParameters (n := 1) (hf.linear ι).affine (smooth_one hf ι).less w (fun _ => 0) (by fun_prop) (by fun_prop)
  have hg : ContDiff ℝ 1 fun z : Sys ι β K => kineticEnergy w (directParameters (f ι) w 0 z.1 z.2.1) := by
    simp only [kineticEnergy_eq]
    exact ContDiff.sum fun r _ => contDiff_const.mul (((contDiff_pi.1 hθ) r).pow 2)
  obtain ⟨C, h₀, h1, h2, key⟩ := observable_order hC hg hT hy
  refine ⟨C, h₀, h1, h2, fun h hh hle G ts hinc hts hs => ?_⟩
  obtain ⟨ys, e1, e2⟩ := key h hh hle G ts hinc hts hs
  refine ⟨ys, by rw [← hya]; exact e1, ?_⟩
  have hy0 : Solves (Evolution.field f (Evolution.autodiff f w fun _ => (0, 0))) a b y := by
    rw [← C52_randomness (hf.linear ι).affine w ρ fun _ => (0, 0)]
    exact hy
  rw [List.forall₂_iff_get] at e2 ⊢
  refine ⟨e2.1, fun i hi hi' => ?_⟩
  have h3 := e2.2 i hi hi'
  have hτ := List.get_mem (a :: ts) ⟨i, hi'⟩
  generalize (a :: ts).get ⟨i, hi'⟩ = τ at hτ h3 ⊢
  have hm : τ ∈ Icc a b := by
    refine ⟨?_, hts _ hτ⟩
    rcases List.mem_cons.1 hτ with h' | h'
    · exact h'.ge
    · exact ((List.pairwise_cons.1 hinc).1 _ h').le
  have hk := C35_norm_penalty_constant (hf.linear ι) w hw' (fun θ q j => (smooth_one hf ι).differentiable θ j q) hy0.trajectory hm
  rw [← hya]
  rw [hk] at h3
  exact h3

end Verif.Order
