import Verif.Transport.Model
import Verif.Transport.Spec
import Verif.Shooting.Lemmas
import Mathlib.Analysis.InnerProductSpace.Projection.Basic
import Mathlib.Analysis.InnerProductSpace.Projection.FiniteDimensional
import Mathlib.Analysis.InnerProductSpace.PiL2
import Mathlib.Analysis.Calculus.LocalExtr.Basic
import Mathlib.Algebra.Order.BigOperators.Ring.Finset

/-! # The optimal transport integrand: lemmas -/

set_option linter.unusedSectionVars false

namespace Verif.Transport
open Verif.Shooting

variable {ι K P : Type} [Fintype ι] [Fintype K] [Fintype P]

/-- `M δ`. -/
noncomputable def apply (rhs : Rhs (ι × K) P) (q : ι × K → ℝ) (δ : P → ℝ) (j : ι × K) : ℝ := ∑ r, coeff rhs q j r * δ r

/-- The gradient of the Lagrangian. -/
noncomputable def grad (rhs : Rhs (ι × K) P) (w : ℝ) (q p : ι × K → ℝ) (θ : P → ℝ) (r : P) : ℝ :=
  w * ∑ j, rhs θ q j * coeff rhs q j r - potCoeff rhs q p r

theorem rhs_add {rhs : Rhs (ι × K) P} (h : AffineInParams rhs) (q : ι × K → ℝ) (θ δ : P → ℝ) (j : ι × K) :
    rhs (fun r => θ r + δ r) q j = rhs θ q j + apply rhs q δ j := by
  rw [affine_coeff h, affine_coeff h θ]
  simp only [apply, mul_add, Finset.sum_add_distrib]
  ring

theorem sum_apply_mul (rhs : Rhs (ι × K) P) (q : ι × K → ℝ) (δ : P → ℝ) (v : ι × K → ℝ) :
    ∑ j, v j * apply rhs q δ j = ∑ r, (∑ j, v j * coeff rhs q j r) * δ r := by
  simp only [apply, Finset.mul_sum, Finset.sum_mul]
  rw [Finset.sum_comm]
  exact Finset.sum_congr rfl fun _ _ => Finset.sum_congr rfl fun _ _ => by ring

theorem potential_add {rhs : Rhs (ι × K) P} (h : AffineInParams rhs) (q p : ι × K → ℝ) (θ δ : P → ℝ) :
    potentialEnergy rhs q p (fun r => θ r + δ r) = potentialEnergy rhs q p θ + ∑ r, potCoeff rhs q p r * δ r := by
  rw [potentialEnergy_affine h, potentialEnergy_affine h q p θ]
  simp only [mul_add, Finset.sum_add_distrib]
  ring

/-- The Lagrangian is a quadratic function of the parameters. -/
theorem lagr_add {rhs : Rhs (ι × K) P} (h : AffineInParams rhs) (w : ℝ) (q p : ι × K → ℝ) (θ δ : P → ℝ) :
    lagr rhs w q p (fun r => θ r + δ r) =
      lagr rhs w q p θ + ∑ r, grad rhs w q p θ r * δ r + w / 2 * ∑ j, apply rhs q δ j ^ 2 := by
  unfold lagr kinetic
  rw [potential_add h]
  simp only [rhs_add h]
  have e : ∑ j, (rhs θ q j + apply rhs q δ j) ^ 2 = ∑ j, rhs θ q j ^ 2 + 2 * ∑ j, rhs θ q j * apply rhs q δ j + ∑ j, apply rhs q δ j ^ 2 := by
    rw [Finset.mul_sum, ← Finset.sum_add_distrib, ← Finset.sum_add_distrib]
    exact Finset.sum_congr rfl fun _ _ => by ring
  have e2 : ∑ r, grad rhs w q p θ r * δ r = w * ∑ r, (∑ j, rhs θ q j * coeff rhs q j r) * δ r - ∑ r, potCoeff rhs q p r * δ r := by
    rw [Finset.mul_sum, ← Finset.sum_sub_distrib]
    exact Finset.sum_congr rfl fun _ _ => by unfold grad; ring
  rw [e, e2, sum_apply_mul]
  ring

theorem hasGrad_lagr {rhs : Rhs (ι × K) P} (h : AffineInParams rhs) (w : ℝ) (q p : ι × K → ℝ) (θ : P → ℝ) :
    HasGrad (fun θ' => lagr rhs w q p θ') (grad rhs w q p θ) θ := by
  have h1 : ∀ j, HasGrad (fun θ' => rhs θ' q j) (coeff rhs q j) θ := fun j =>
    ((hasGrad_const (rhs 0 q j) θ).add (hasGrad_linear (coeff rhs q j) θ)).congr (fun y => affine_coeff h y q j) fun r => by simp
  have h2 := HasGrad.sum (F := fun j θ' => rhs θ' q j * rhs θ' q j) fun j => (h1 j).mul (h1 j)
  refine ((h2.const_mul (0.5 * w)).sub (hasGrad_potential_params h q p θ)).congr (fun y => ?_) fun r => ?_
  · unfold lagr kinetic
    simp only [pow_two]
  · unfold grad
    simp only [Finset.mul_sum]
    congr 1
    exact Finset.sum_congr rfl fun _ _ => by ring

theorem step_eq {rhs : Rhs (ι × K) P} (h : AffineInParams rhs) (w : ℝ) (q p : ι × K → ℝ) (θ : P → ℝ) :
    step rhs w q p θ = fun r => θ r + (-0.5) * grad rhs w q p θ r := by
  unfold step
  rw [(hasGrad_lagr h w q p θ).autograd_eq]

theorem iterate_succ (rhs : Rhs (ι × K) P) (w : ℝ) (q p : ι × K → ℝ) (n : ℕ) (θ : P → ℝ) :
    iterate rhs w q p (n + 1) θ = step rhs w q p (iterate rhs w q p n θ) := Function.iterate_succ_apply' _ _ _

theorem minimiser_iff {rhs : Rhs (ι × K) P} (h : AffineInParams rhs) {w : ℝ} (hw : 0 ≤ w) (q p : ι × K → ℝ) (θ : P → ℝ) :
    Minimiser (lagr rhs w q p) θ ↔ ∀ r, grad rhs w q p θ r = 0 := by
  constructor
  · intro hm
    have h1 : IsLocalMin (fun θ' => lagr rhs w q p θ') θ := Filter.Eventually.of_forall fun θ' => hm θ'
    have h2 := h1.hasFDerivAt_eq_zero (hasGrad_lagr h w q p θ)
    intro r
    have h3 := DFunLike.congr_fun h2 (grad rhs w q p θ)
    rw [grad_apply] at h3
    have h4 : ∑ r, grad rhs w q p θ r * grad rhs w q p θ r = 0 := h3
    exact mul_self_eq_zero.1 ((Finset.sum_eq_zero_iff_of_nonneg fun r _ => mul_self_nonneg _).1 h4 r (Finset.mem_univ r))
  · intro h0 θ'
    have e := lagr_add h w q p θ (fun r => θ' r - θ r)
    simp only [add_sub_cancel, h0, zero_mul, Finset.sum_const_zero, add_zero] at e
    rw [e]
    have : 0 ≤ w / 2 * ∑ j, apply rhs q (fun r => θ' r - θ r) j ^ 2 :=
      mul_nonneg (by linarith) (Finset.sum_nonneg fun _ _ => sq_nonneg _)
    linarith

/-- Every least squares problem has a solution. -/
theorem exists_normal {J : Type} [Fintype J] (M : J → P → ℝ) (b : J → ℝ) :
    ∃ θ : P → ℝ, ∀ r, ∑ j, (b j - ∑ r', M j r' * θ r') * M j r = 0 := by
  classical
  let A : (P → ℝ) →ₗ[ℝ] EuclideanSpace ℝ J :=
    { toFun := fun θ => WithLp.toLp 2 fun j => ∑ r, M j r * θ r
      map_add' := fun x y => by ext j; simp [mul_add, Finset.sum_add_distrib]
      map_smul' := fun a x => by
        ext j
        simp only [Pi.smul_apply, smul_eq_mul, RingHom.id_apply, PiLp.smul_apply, Finset.mul_sum]
        exact Finset.sum_congr rfl fun _ _ => by ring }
  let S := LinearMap.range A
  let bb : EuclideanSpace ℝ J := WithLp.toLp 2 b
  obtain ⟨θ, hθ⟩ := (S.starProjection_apply_mem bb : S.starProjection bb ∈ S)
  refine ⟨θ, fun r => ?_⟩
  have h1 := S.sub_starProjection_mem_orthogonal bb
  have h2 := (Submodule.mem_orthogonal _ _).1 h1 (A (Pi.single r 1)) ⟨_, rfl⟩
  rw [← hθ] at h2
  rw [PiLp.inner_apply] at h2
  refine Eq.trans (Finset.sum_congr rfl fun j _ => ?_) h2
  simp only [A, bb, LinearMap.coe_mk, AddHom.coe_mk, PiLp.sub_apply, RCLike.inner_apply, conj_trivial]
  simp [Pi.single_apply]

end Verif.Transport
