import Verif.Order.Lemmas
import Verif.Converge.Forward
import Verif.Converge.Images

/-!
# C94: the integration methods have the order of accuracy they are known for
-/

namespace Verif.Order
open Set Verif Verif.Tensor Verif.Assembly Verif.Flow Verif.Whole Verif.Evolution Verif.Models Verif.Shooting Verif.Converge

variable {ι β K K' P R H D Θ Rb : Type}

/-- C94: Euler's method satisfies the conditions for order 1, the midpoint rule those for order 2, both Runge-Kutta rules those for order 4. -/
theorem C94_methods : HasOrder Converge.euler 1 ∧ HasOrder midpoint 2 ∧ HasOrder Converge.rk4 4 ∧ HasOrder rk38 4 := by
  refine ⟨⟨by norm_num, by norm_num, ?_, C68_methods.1, by norm_num, by norm_num, by norm_num⟩, ⟨by norm_num, by norm_num, ?_, C68_methods.2.1, ?_, by norm_num, by norm_num⟩,
    ⟨by norm_num, by norm_num, ?_, C68_methods.2.2.1, ?_, ?_, ?_⟩, ⟨by norm_num, by norm_num, ?_, C68_methods.2.2.2, ?_, ?_, ?_⟩⟩
  · simp [Converge.euler, RowSums]
  · simp [Converge.midpoint, RowSums]
  · simp [Converge.midpoint, weighted, nodes, comb]
  · simp [Converge.rk4, RowSums]
  · norm_num [Converge.rk4, weighted, nodes, comb]
  · norm_num [Converge.rk4, weighted, nodes, comb]
  · norm_num [Converge.rk4, weighted, nodes, comb]
  · norm_num [rk38, RowSums]
  · norm_num [rk38, weighted, nodes, comb]
  · norm_num [rk38, weighted, nodes, comb]
  · norm_num [rk38, weighted, nodes, comb]

/-- C94: one step.  The equations are five times continuously differentiable, `y` is an exact solution: a step of length `k` of a method of order `p` that starts on the solution ends within a
constant times `k ^ (p + 1)` of it. -/
theorem C94_step {E : Type} [NormedAddCommGroup E] [NormedSpace ℝ E] [ProperSpace E] {f : ℝ → E → E} (hf : ContDiff ℝ 5 fun z : ℝ × E => f z.1 z.2) {T : Tableau} {p : ℕ} (hT : HasOrder T p)
    {a b : ℝ} {y : ℝ → E} (hy : Solves f a b y) :
    ∃ C, 0 ≤ C ∧ ∀ t t', a ≤ t → t ≤ t' → t' ≤ b → t' - t ≤ 1 → ‖y t' - (y t + (t' - t) • increment T f (t' - t) t (y t))‖ ≤ C * (t' - t) ^ (p + 1) :=
  local_error_order hf hT hy

variable [Fintype ι] [Fintype β] [Fintype K] [Fintype K']

/-- C94 for systems of coordinates: the equations are five times continuously differentiable, `y` is an exact solution, the method has order `p`.  Then there are a constant and a step size such that
for every grid with at most this step size and every list of times the solver succeeds; at a requested time that belongs to the grid the distance to the solution is at most the constant times
`h ^ p`, at any other requested time (where the library interpolates linearly) at most the constant times `h ^ p + h ^ 2`. -/
theorem C94_converge {fld : ℝ → Sys2 ι β K K' → Sys2 ι β K K'} (hf : ContDiff ℝ 5 fun z : ℝ × Sys2 ι β K K' => fld z.1 z.2) {T : Tableau} {p : ℕ} (hT : HasOrder T p) {a b : ℝ}
    {y : ℝ → Sys2 ι β K K'} (hy : Solves fld a b y) : ∃ C h₀ : ℝ, 0 ≤ C ∧ 0 < h₀ ∧ ∀ h, 0 < h → h ≤ h₀ → ∀ (G : List ℝ → List ℝ) (ts : List ℝ),
      (a :: ts).Pairwise (· < ·) → (∀ τ ∈ a :: ts, τ ≤ b) → Suits h G a ts →
      ∃ ys, runSys fld (solver T G (a :: ts)) [y a] = .ok ys ∧
        List.Forall₂ (fun Y τ => ‖Y - y τ‖ ≤ C * (h ^ p + h ^ 2) ∧ (τ ∈ G (a :: ts) → ‖Y - y τ‖ ≤ C * h ^ p)) ys (a :: ts) := by
  obtain ⟨C, h₀, hC, hp, key⟩ := outputs_order hf hT hy
  refine ⟨C, h₀, hC, hp, fun h hh hle G ts hi hts hg => ?_⟩
  obtain ⟨g, hg1, hg2, hm⟩ := hg
  rw [hg1]
  exact ⟨_, run_solver fld T G a ts g (y a) ((increasing_iff _).2 hi) hg1 hg2, key h hh hle ts g hi hts hg2 hm⟩

end Verif.Order
