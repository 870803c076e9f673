import Verif.Shooting.Lemmas
import Mathlib.Analysis.Calculus.FDeriv.Pow
import Mathlib.Analysis.Calculus.MeanValue

/-!
# The parameters drop out when the reduced Lagrangian is differentiated
-/

namespace Verif.Shooting

section Abstract
variable {E P : Type} [NormedAddCommGroup E] [NormedSpace ℝ E] [Fintype P]

/-- `y ↦ -∑ S r y ^ 2 * c r / 2 - A 0 y` is the value of a quadratic minus an affine function at its critical point
`θ r = c r * S r y`; its derivative is the one with `θ` frozen. -/
theorem envelope (A : (P → ℝ) → E → ℝ) (S : P → E → ℝ) (c : P → ℝ) (x : E)
    (hA : ∀ θ y, A θ y = A 0 y + ∑ r, S r y * θ r) (hd : ∀ θ, DifferentiableAt ℝ (A θ) x) :
    HasFDerivAt (fun y => -(∑ r, c r / 2 * S r y ^ 2) - A 0 y) (-fderiv ℝ (A (fun r => c r * S r x)) x) x := by
  classical
  have hS : ∀ r, S r = fun y => A (Pi.single r 1) y - A 0 y := by
    intro r
    funext y
    rw [hA (Pi.single r 1) y]
    simp [Pi.single_apply]
  have hSd : ∀ r, DifferentiableAt ℝ (S r) x := by
    intro r
    rw [hS r]
    exact (hd _).sub (hd 0)
  set θ : P → ℝ := fun r => c r * S r x with hθ
  have h1 : HasFDerivAt (A θ) (fderiv ℝ (A 0) x + ∑ r, θ r • fderiv ℝ (S r) x) x := by
    have : A θ = fun y => A 0 y + ∑ r, θ r * S r y := by
      funext y
      rw [hA θ y]
      simp [mul_comm]
    rw [this]
    refine (hd 0).hasFDerivAt.add (HasFDerivAt.fun_sum fun r _ => ?_)
    simpa using (hSd r).hasFDerivAt.const_mul (θ r)
  rw [h1.fderiv]
  have h2 : HasFDerivAt (fun y => ∑ r, c r / 2 * S r y ^ 2) (∑ r, θ r • fderiv ℝ (S r) x) x := by
    refine HasFDerivAt.fun_sum fun r _ => ?_
    have := ((hSd r).hasFDerivAt.pow 2).const_mul (c r / 2)
    refine this.congr_fderiv ?_
    rw [smul_smul, hθ]
    congr 1
    simp
    ring
  have := h2.neg.sub (hd 0).hasFDerivAt
  refine this.congr_fderiv ?_
  rw [neg_add_rev]
  abel

end Abstract

section Reduced
variable {ι K P : Type} [Fintype ι] [Fintype K] [Fintype P] [Nonempty ι]

/-- `N` times the potential energy as a function of state and costate. -/
noncomputable def pairing (rhs : Rhs (ι × K) P) (θ : P → ℝ) (y : (ι × K → ℝ) × (ι × K → ℝ)) : ℝ :=
  ∑ j, y.2 j * rhs θ y.1 j

/-- Derivative of a component of the right-hand side with respect to the state. -/
noncomputable def jac (rhs : Rhs (ι × K) P) (θ : P → ℝ) (q : ι × K → ℝ) (j k : ι × K) : ℝ :=
  autograd (fun q' => rhs θ q' j) q k

omit [Nonempty ι] [Fintype P] in
theorem hasFDerivAt_pairing {rhs : Rhs (ι × K) P} {θ : P → ℝ} {q : ι × K → ℝ} (p : ι × K → ℝ)
    (hd : ∀ j, DifferentiableAt ℝ (fun q' => rhs θ q' j) q) :
    ∃ D : ((ι × K → ℝ) × (ι × K → ℝ)) →L[ℝ] ℝ, HasFDerivAt (pairing rhs θ) D (q, p) ∧
      ∀ v u, D (v, u) = ∑ j, u j * rhs θ q j + ∑ k, (∑ j, p j * jac rhs θ q j k) * v k := by
  have hg : ∀ j, HasGrad (fun q' => rhs θ q' j) (jac rhs θ q j) q := fun j => hasGrad_of_differentiableAt (hd j)
  have h1 : ∀ j, HasFDerivAt (fun y : (ι × K → ℝ) × (ι × K → ℝ) => rhs θ y.1 j)
      ((∑ k, jac rhs θ q j k • (ContinuousLinearMap.proj k : (ι × K → ℝ) →L[ℝ] ℝ)).comp
        (ContinuousLinearMap.fst ℝ (ι × K → ℝ) (ι × K → ℝ))) (q, p) := fun j =>
    HasFDerivAt.comp (q, p) (f := Prod.fst) (g := fun q' => rhs θ q' j) (hg j) hasFDerivAt_fst
  have h2 : ∀ j, HasFDerivAt (fun y : (ι × K → ℝ) × (ι × K → ℝ) => y.2 j)
      ((ContinuousLinearMap.proj j : (ι × K → ℝ) →L[ℝ] ℝ).comp
        (ContinuousLinearMap.snd ℝ (ι × K → ℝ) (ι × K → ℝ))) (q, p) := fun j =>
    HasFDerivAt.comp (q, p) (f := Prod.snd) (g := fun p' : ι × K → ℝ => p' j) (hasFDerivAt_apply j p) hasFDerivAt_snd
  refine ⟨_, HasFDerivAt.fun_sum (u := Finset.univ) fun j _ => (h2 j).mul (h1 j), ?_⟩
  intro v u
  rw [sum_apply]
  simp only [add_apply, smul_apply, ContinuousLinearMap.comp_apply, ContinuousLinearMap.coe_fst',
    ContinuousLinearMap.coe_snd', grad_apply, smul_eq_mul, ContinuousLinearMap.proj_apply]
  rw [Finset.sum_add_distrib, add_comm]
  congr 1
  · exact Finset.sum_congr rfl fun j _ => mul_comm _ _
  · simp only [Finset.mul_sum, Finset.sum_mul]
    rw [Finset.sum_comm]
    exact Finset.sum_congr rfl fun k _ => Finset.sum_congr rfl fun j _ => by ring

theorem reducedLagrangian_eq {rhs : Rhs (ι × K) P} (h : AffineInParams rhs) (w : P → Option ℝ) (hw : ∀ r, weight w r ≠ 0)
    (θ0 : P → ℝ) (y : (ι × K → ℝ) × (ι × K → ℝ)) :
    reducedLagrangian rhs w θ0 y.1 y.2 =
      -(∑ r, (1 / (weight w r * Fintype.card ι)) / 2 * (∑ j, y.2 j * coeff rhs y.1 j r) ^ 2) - pairing rhs 0 y := by
  have hN : (Fintype.card ι : ℝ) ≠ 0 := by exact_mod_cast Fintype.card_ne_zero
  unfold reducedLagrangian
  rw [lagrangian_eq h, mul_sub, card_mul_potentialEnergy, Finset.mul_sum, ← Finset.sum_neg_distrib]
  congr 1
  refine Finset.sum_congr rfl fun r _ => ?_
  rw [directParameters_eq h]
  unfold potCoeff
  have := hw r
  field_simp
  ring

theorem hasFDerivAt_reduced {rhs : Rhs (ι × K) P} (h : AffineInParams rhs) (w : P → Option ℝ) (hw : ∀ r, weight w r ≠ 0)
    (θ0 : P → ℝ) {q : ι × K → ℝ} (p : ι × K → ℝ) (hd : ∀ θ j, DifferentiableAt ℝ (fun q' => rhs θ q' j) q) :
    HasFDerivAt (fun y : (ι × K → ℝ) × (ι × K → ℝ) => reducedLagrangian rhs w θ0 y.1 y.2)
      (-fderiv ℝ (pairing rhs (directParameters rhs w θ0 q p)) (q, p)) (q, p) := by
  have hN : (Fintype.card ι : ℝ) ≠ 0 := by exact_mod_cast Fintype.card_ne_zero
  have hA : ∀ (θ : P → ℝ) (y : (ι × K → ℝ) × (ι × K → ℝ)), pairing rhs θ y = pairing rhs 0 y +
      ∑ r, (∑ j, y.2 j * coeff rhs y.1 j r) * θ r := by
    intro θ y
    rw [pairing, pairing, ← card_mul_potentialEnergy, ← card_mul_potentialEnergy, potentialEnergy_affine h, mul_add, Finset.mul_sum]
    congr 1
    refine Finset.sum_congr rfl fun r _ => ?_
    unfold potCoeff
    field_simp
  have hdd : ∀ θ, DifferentiableAt ℝ (pairing rhs θ) (q, p) := by
    intro θ
    obtain ⟨D, hD, _⟩ := hasFDerivAt_pairing p (hd θ)
    exact hD.differentiableAt
  have := envelope (pairing rhs) (fun r y => ∑ j, y.2 j * coeff rhs y.1 j r)
    (fun r => 1 / (weight w r * Fintype.card ι)) (q, p) hA hdd
  have e : (fun r => 1 / (weight w r * Fintype.card ι) * ∑ j, p j * coeff rhs q j r) = directParameters rhs w θ0 q p := by
    funext r
    rw [directParameters_eq h]
    unfold potCoeff
    have := hw r
    field_simp
  simp only [e] at this
  rwa [show (fun y : (ι × K → ℝ) × (ι × K → ℝ) => reducedLagrangian rhs w θ0 y.1 y.2) = _ from
    funext (reducedLagrangian_eq h w hw θ0)]

theorem hasGrad_reduced {rhs : Rhs (ι × K) P} (h : AffineInParams rhs) (w : P → Option ℝ) (hw : ∀ r, weight w r ≠ 0)
    (θ0 : P → ℝ) {q : ι × K → ℝ} (p : ι × K → ℝ) (hd : ∀ θ j, DifferentiableAt ℝ (fun q' => rhs θ q' j) q) :
    HasGrad (fun q' => reducedLagrangian rhs w θ0 q' p)
      (fun k => - ∑ j, p j * jac rhs (directParameters rhs w θ0 q p) q j k) q := by
  obtain ⟨D, hD, hv⟩ := hasFDerivAt_pairing p (hd (directParameters rhs w θ0 q p))
  have h1 := hasFDerivAt_reduced h w hw θ0 p hd
  rw [hD.fderiv] at h1
  have h2 : HasFDerivAt (fun q' : ι × K → ℝ => (q', p))
      ((ContinuousLinearMap.id ℝ (ι × K → ℝ)).prod (0 : (ι × K → ℝ) →L[ℝ] (ι × K → ℝ))) q :=
    (hasFDerivAt_id q).prodMk (hasFDerivAt_const p q)
  have h3 := HasFDerivAt.comp q (f := fun q' : ι × K → ℝ => (q', p))
    (g := fun y : (ι × K → ℝ) × (ι × K → ℝ) => reducedLagrangian rhs w θ0 y.1 y.2) h1 h2
  refine h3.congr_fderiv ?_
  ext v
  rw [grad_apply]
  have : (ContinuousLinearMap.id ℝ (ι × K → ℝ)).prod (0 : (ι × K → ℝ) →L[ℝ] (ι × K → ℝ)) v = (v, 0) := rfl
  simp only [ContinuousLinearMap.comp_apply, neg_apply, this, hv]
  simp

theorem hasGrad_reducedFixed (rhs : Rhs (ι × K) P) (w : P → Option ℝ)
    (θ : P → ℝ) {q : ι × K → ℝ} (p : ι × K → ℝ) (hd : ∀ j, DifferentiableAt ℝ (fun q' => rhs θ q' j) q) :
    HasGrad (fun q' => reducedLagrangianFixed rhs w θ q' p) (fun k => - ∑ j, p j * jac rhs θ q j k) q := by
  have hg : ∀ j, HasGrad (fun q' => rhs θ q' j) (jac rhs θ q j) q := fun j => hasGrad_of_differentiableAt (hd j)
  have h1 := (hasGrad_const ((Fintype.card ι : ℝ) * kineticEnergy w θ) q).sub
    (HasGrad.sum (F := fun j q' => p j * rhs θ q' j) fun j => (hg j).const_mul (p j))
  refine h1.congr (fun y => ?_) (fun k => by simp)
  unfold reducedLagrangianFixed lagrangian
  rw [mul_sub, card_mul_potentialEnergy]

end Reduced

end Verif.Shooting
