import Verif.Shooting.Model
import Mathlib.Algebra.BigOperators.Field
import Mathlib.Tactic.Ring
import Mathlib.Tactic.FieldSimp
import Mathlib.Tactic.Linarith
import Mathlib.Tactic.FunProp

/-!
# Gradients and the reduced Lagrangian: helper lemmas
-/

namespace Verif.Shooting

section Grad
variable {J : Type} [Fintype J]

theorem grad_apply (g v : J → ℝ) :
    (∑ j, g j • (ContinuousLinearMap.proj j : (J → ℝ) →L[ℝ] ℝ)) v = ∑ j, g j * v j := by
  simp

/-- Along a differentiable curve the rate of change is the pairing with the gradient. -/
theorem HasGrad.comp_curve {F : (J → ℝ) → ℝ} {g x : J → ℝ} (h : HasGrad F g x) {c : ℝ → J → ℝ} {v : J → ℝ}
    {s : ℝ} (hx : c s = x) (hc : ∀ j, HasDerivAt (fun u => c u j) (v j) s) :
    HasDerivAt (fun u => F (c u)) (∑ j, g j * v j) s := by
  subst hx
  have h1 : HasDerivAt c v s := hasDerivAt_pi.2 hc
  have h2 := HasFDerivAt.comp_hasDerivAt s h h1
  rw [grad_apply] at h2
  exact h2

theorem HasGrad.autograd_eq {F : (J → ℝ) → ℝ} {g x : J → ℝ} (h : HasGrad F g x) : autograd F x = g := by
  classical
  funext j
  have hc : ∀ k, HasDerivAt (fun s => Function.update x j s k) (if k = j then 1 else 0 : ℝ) (x j) := by
    intro k
    by_cases hk : k = j
    · subst hk
      simpa using hasDerivAt_id' (x k)
    · simpa [Function.update_of_ne hk, hk] using hasDerivAt_const (x j) (x k)
  have := (h.comp_curve (c := fun s => Function.update x j s) (s := x j) (by simp) hc).deriv
  simp only [mul_ite, mul_one, mul_zero, Finset.sum_ite_eq', Finset.mem_univ, if_true] at this
  unfold autograd
  convert this using 4

/-- The gradient is unique. -/
theorem HasGrad.unique {F : (J → ℝ) → ℝ} {g g' x : J → ℝ} (h : HasGrad F g x) (h' : HasGrad F g' x) : g = g' :=
  h.autograd_eq.symm.trans h'.autograd_eq

theorem HasGrad.add {F G : (J → ℝ) → ℝ} {f g x : J → ℝ} (hF : HasGrad F f x) (hG : HasGrad G g x) :
    HasGrad (fun y => F y + G y) (fun j => f j + g j) x := by
  refine (HasFDerivAt.add hF hG).congr_fderiv ?_
  ext v
  simp [Finset.sum_add_distrib, add_mul]

theorem HasGrad.const_mul {F : (J → ℝ) → ℝ} {f x : J → ℝ} (c : ℝ) (hF : HasGrad F f x) :
    HasGrad (fun y => c * F y) (fun j => c * f j) x := by
  refine (HasFDerivAt.const_mul hF c).congr_fderiv ?_
  ext v
  simp [Finset.mul_sum, mul_assoc]

theorem HasGrad.neg {F : (J → ℝ) → ℝ} {f x : J → ℝ} (hF : HasGrad F f x) :
    HasGrad (fun y => - F y) (fun j => - f j) x := by
  have := hF.const_mul (-1)
  simpa using this

theorem HasGrad.sub {F G : (J → ℝ) → ℝ} {f g x : J → ℝ} (hF : HasGrad F f x) (hG : HasGrad G g x) :
    HasGrad (fun y => F y - G y) (fun j => f j - g j) x := by
  simpa [sub_eq_add_neg] using hF.add hG.neg

theorem HasGrad.mul {F G : (J → ℝ) → ℝ} {f g x : J → ℝ} (hF : HasGrad F f x) (hG : HasGrad G g x) :
    HasGrad (fun y => F y * G y) (fun j => F x * g j + G x * f j) x := by
  refine (HasFDerivAt.mul hF hG).congr_fderiv ?_
  ext v
  simp [Finset.mul_sum, add_mul, Finset.sum_add_distrib, mul_assoc]

theorem hasGrad_const (c : ℝ) (x : J → ℝ) : HasGrad (fun _ => c) (fun _ => 0) x := by
  refine (hasFDerivAt_const c x).congr_fderiv ?_
  ext v
  simp

theorem HasGrad.sum {R : Type} [Fintype R] {F : R → (J → ℝ) → ℝ} {f : R → J → ℝ} {x : J → ℝ}
    (h : ∀ r, HasGrad (F r) (f r) x) : HasGrad (fun y => ∑ r, F r y) (fun j => ∑ r, f r j) x := by
  refine (HasFDerivAt.fun_sum (u := Finset.univ) (fun r _ => h r)).congr_fderiv ?_
  ext v
  rw [grad_apply, sum_apply]
  simp only [grad_apply, Finset.sum_mul]
  rw [Finset.sum_comm]

theorem HasGrad.congr {F G : (J → ℝ) → ℝ} {f g x : J → ℝ} (hF : HasGrad F f x) (h1 : ∀ y, G y = F y)
    (h2 : ∀ j, g j = f j) : HasGrad G g x := by
  rw [show G = F from funext h1, show g = f from funext h2]
  exact hF

/-- A differentiable function has a gradient: its partial derivatives. -/
theorem hasGrad_of_differentiableAt {F : (J → ℝ) → ℝ} {x : J → ℝ} (h : DifferentiableAt ℝ F x) :
    HasGrad F (autograd F x) x := by
  classical
  have : HasGrad F (fun j => fderiv ℝ F x (Pi.single j 1)) x := by
    refine h.hasFDerivAt.congr_fderiv ?_
    ext v
    rw [grad_apply]
    conv_lhs => rw [← Finset.univ_sum_single v]
    rw [map_sum]
    refine Finset.sum_congr rfl fun j _ => ?_
    rw [show Pi.single j (v j) = v j • (Pi.single j (1 : ℝ) : J → ℝ) by
      ext k; by_cases hk : k = j
      · subst hk; simp
      · simp [hk]]
    rw [map_smul, smul_eq_mul, mul_comm]
  rwa [this.autograd_eq]

theorem HasGrad.differentiableAt {F : (J → ℝ) → ℝ} {g x : J → ℝ} (h : HasGrad F g x) : DifferentiableAt ℝ F x :=
  HasFDerivAt.differentiableAt h

theorem hasGrad_coord (j : J) [DecidableEq J] (x : J → ℝ) : HasGrad (fun y => y j) (Pi.single j 1) x := by
  refine (hasFDerivAt_apply j x).congr_fderiv ?_
  ext v
  rw [grad_apply]
  simp [Pi.single_apply]

end Grad

/-! ## The potential energy -/

section Potential
variable {ι K P : Type} [Fintype ι] [Fintype K] [Fintype P]

omit [Fintype P] in
theorem potentialEnergy_eq (rhs : Rhs (ι × K) P) (q p : ι × K → ℝ) (θ : P → ℝ) :
    potentialEnergy rhs q p θ = (∑ j, p j * rhs θ q j) / Fintype.card ι := by
  unfold potentialEnergy
  rw [← Finset.sum_div, Fintype.sum_prod_type_right]

omit [Fintype P] in
theorem card_mul_potentialEnergy [Nonempty ι] (rhs : Rhs (ι × K) P) (q p : ι × K → ℝ) (θ : P → ℝ) :
    (Fintype.card ι : ℝ) * potentialEnergy rhs q p θ = ∑ j, p j * rhs θ q j := by
  rw [potentialEnergy_eq]
  have : (Fintype.card ι : ℝ) ≠ 0 := by exact_mod_cast Fintype.card_ne_zero
  field_simp

/-- The coefficient of parameter `r` in component `j`. -/
noncomputable def coeff (rhs : Rhs (ι × K) P) (q : ι × K → ℝ) (j : ι × K) (r : P) : ℝ :=
  open Classical in rhs (Pi.single r 1) q j - rhs 0 q j

omit [Fintype ι] [Fintype K] in
theorem affine_coeff {rhs : Rhs (ι × K) P} (h : AffineInParams rhs) (θ : P → ℝ) (q : ι × K → ℝ) (j : ι × K) :
    rhs θ q j = rhs 0 q j + ∑ r, coeff rhs q j r * θ r := by
  classical
  obtain ⟨a, m, hm⟩ := h q j
  have h0 : rhs 0 q j = a := by rw [hm]; simp
  have h1 : ∀ r, coeff rhs q j r = m r := by
    intro r
    unfold coeff
    rw [h0, hm]
    simp [Pi.single_apply]
  rw [h0, hm]
  simp [h1]

/-- The coefficient of parameter `r` in the potential energy. -/
noncomputable def potCoeff (rhs : Rhs (ι × K) P) (q p : ι × K → ℝ) (r : P) : ℝ :=
  (∑ j, p j * coeff rhs q j r) / Fintype.card ι

theorem potentialEnergy_affine {rhs : Rhs (ι × K) P} (h : AffineInParams rhs) (q p : ι × K → ℝ) (θ : P → ℝ) :
    potentialEnergy rhs q p θ = potentialEnergy rhs q p 0 + ∑ r, potCoeff rhs q p r * θ r := by
  rw [potentialEnergy_eq, potentialEnergy_eq]
  unfold potCoeff
  have : ∀ j, p j * rhs θ q j = p j * rhs 0 q j + ∑ r, p j * coeff rhs q j r * θ r := by
    intro j
    rw [affine_coeff h θ q j, mul_add, Finset.mul_sum]
    simp [mul_assoc]
  rw [Finset.sum_congr rfl (fun j _ => this j), Finset.sum_add_distrib, add_div, Finset.sum_comm]
  congr 1
  rw [Finset.sum_div]
  refine Finset.sum_congr rfl fun r _ => ?_
  rw [← Finset.sum_mul]
  ring

theorem hasGrad_linear (g : P → ℝ) (x : P → ℝ) : HasGrad (fun θ => ∑ r, g r * θ r) g x := by
  classical
  have : HasGrad (fun θ : P → ℝ => ∑ r, g r * θ r) (fun j => ∑ r, g r * (Pi.single r 1 : P → ℝ) j) x :=
    HasGrad.sum (F := fun r (θ : P → ℝ) => g r * θ r) fun r => (hasGrad_coord r x).const_mul (g r)
  refine this.congr (fun _ => rfl) fun j => ?_
  simp [Pi.single_apply]

theorem hasGrad_potential_params {rhs : Rhs (ι × K) P} (h : AffineInParams rhs) (q p : ι × K → ℝ) (θ : P → ℝ) :
    HasGrad (fun θ => potentialEnergy rhs q p θ) (potCoeff rhs q p) θ := by
  have := (hasGrad_const (potentialEnergy rhs q p 0) θ).add (hasGrad_linear (potCoeff rhs q p) θ)
  exact this.congr (fun y => potentialEnergy_affine h q p y) (fun j => by simp)

omit [Fintype P] in
theorem divideByWeight_eq (w : P → Option ℝ) (g : P → ℝ) (r : P) : divideByWeight w g r = g r / weight w r := by
  unfold divideByWeight weight
  cases w r <;> simp

theorem directParameters_eq {rhs : Rhs (ι × K) P} (h : AffineInParams rhs) (w : P → Option ℝ) (θ0 : P → ℝ)
    (q p : ι × K → ℝ) (r : P) : directParameters rhs w θ0 q p r = potCoeff rhs q p r / weight w r := by
  unfold directParameters
  rw [divideByWeight_eq, (hasGrad_potential_params h q p θ0).autograd_eq]

theorem kineticEnergy_eq (w : P → Option ℝ) (θ : P → ℝ) : kineticEnergy w θ = ∑ r, weight w r / 2 * θ r ^ 2 := by
  unfold kineticEnergy
  rw [Finset.mul_sum]
  refine Finset.sum_congr rfl fun r _ => ?_
  ring

theorem lagrangian_eq {rhs : Rhs (ι × K) P} (h : AffineInParams rhs) (w : P → Option ℝ) (q p : ι × K → ℝ) (θ : P → ℝ) :
    lagrangian rhs w q p θ =
      ∑ r, (weight w r / 2 * θ r ^ 2 - potCoeff rhs q p r * θ r) - potentialEnergy rhs q p 0 := by
  unfold lagrangian
  rw [potentialEnergy_affine h, kineticEnergy_eq, Finset.sum_sub_distrib]
  ring

theorem lagrangian_sub_direct {rhs : Rhs (ι × K) P} (h : AffineInParams rhs) (w : P → Option ℝ)
    (hw : ∀ r, weight w r ≠ 0) (θ0 : P → ℝ) (q p : ι × K → ℝ) (θ : P → ℝ) :
    lagrangian rhs w q p θ - lagrangian rhs w q p (directParameters rhs w θ0 q p) =
      ∑ r, weight w r / 2 * (θ r - directParameters rhs w θ0 q p r) ^ 2 := by
  rw [lagrangian_eq h, lagrangian_eq h, sub_sub_sub_cancel_right, ← Finset.sum_sub_distrib]
  refine Finset.sum_congr rfl fun r _ => ?_
  rw [directParameters_eq h]
  have := hw r
  field_simp
  ring

theorem hasGrad_kinetic (w : P → Option ℝ) (θ : P → ℝ) :
    HasGrad (fun θ => kineticEnergy w θ) (fun r => weight w r * θ r) θ := by
  classical
  have : HasGrad (fun θ : P → ℝ => ∑ r, weight w r / 2 * (θ r * θ r)) _ θ :=
    HasGrad.sum (F := fun r (θ : P → ℝ) => weight w r / 2 * (θ r * θ r)) fun r =>
      ((hasGrad_coord r θ).mul (hasGrad_coord r θ)).const_mul (weight w r / 2)
  refine this.congr (fun y => by rw [kineticEnergy_eq]; simp [pow_two]) fun j => ?_
  simp only [Pi.single_apply, mul_ite, mul_one, mul_zero]
  rw [Finset.sum_eq_single j]
  · simp; ring
  · intro b _ hb
    simp [Ne.symm hb]
  · simp

theorem hasGrad_lagrangian {rhs : Rhs (ι × K) P} (h : AffineInParams rhs) (w : P → Option ℝ) (q p : ι × K → ℝ) (θ : P → ℝ) :
    HasGrad (fun θ => lagrangian rhs w q p θ) (fun r => weight w r * θ r - potCoeff rhs q p r) θ :=
  (hasGrad_kinetic w θ).sub (hasGrad_potential_params h q p θ)

theorem iterationStep_eq {rhs : Rhs (ι × K) P} (h : AffineInParams rhs) (w : P → Option ℝ) (hw : ∀ r, weight w r ≠ 0)
    (θ0 : P → ℝ) (q p : ι × K → ℝ) (θ : P → ℝ) (r : P) :
    iterationStep rhs w q p θ r - directParameters rhs w θ0 q p r =
      (1 - 0.5 * weight w r) * (θ r - directParameters rhs w θ0 q p r) := by
  unfold iterationStep
  rw [(hasGrad_lagrangian h w q p θ).autograd_eq, directParameters_eq h]
  have := hw r
  field_simp
  ring

theorem iterativeParameters_eq {rhs : Rhs (ι × K) P} (h : AffineInParams rhs) (w : P → Option ℝ) (hw : ∀ r, weight w r ≠ 0)
    (θ0 : P → ℝ) (q p : ι × K → ℝ) (n : ℕ) (θ : P → ℝ) (r : P) :
    iterativeParameters rhs w q p n θ r - directParameters rhs w θ0 q p r =
      (1 - 0.5 * weight w r) ^ n * (θ r - directParameters rhs w θ0 q p r) := by
  unfold iterativeParameters
  induction n with
  | zero => simp
  | succ n ih =>
    rw [Function.iterate_succ_apply', iterationStep_eq h w hw θ0, ih]
    ring

end Potential

end Verif.Shooting
