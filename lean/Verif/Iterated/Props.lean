import Verif.Iterated.Model
import Verif.Shooting.Props
import Mathlib.Analysis.SpecificLimits.Basic

/-!
# C73: parameters and costates of the fixed-point iteration
-/

namespace Verif.Iterated
open Verif.Shooting Filter Topology

variable {ι K P : Type} [Fintype ι] [Fintype K] [Fintype P]

/-- **C73.** For every right-hand side (no linearity): a step of the iteration leaves the parameters unchanged exactly when all partial derivatives of the
Lagrangian vanish there. -/
theorem C73_fixed_points (rhs : Rhs (ι × K) P) (w : P → Option ℝ) (q p : ι × K → ℝ) (θ : P → ℝ) :
    iterationStep rhs w q p θ = θ ↔ ∀ r, autograd (fun θ' => lagrangian rhs w q p θ') θ r = 0 := by
  constructor
  · intro h r
    have := congrFun h r
    unfold iterationStep at this
    linarith
  · intro h
    funext r
    unfold iterationStep
    rw [h r]
    ring

/-- **C73.** For every right-hand side: when the iteration converges and the gradient of the Lagrangian is continuous at the limit, the limit is a critical point of the Lagrangian. -/
theorem C73_limit_is_critical (rhs : Rhs (ι × K) P) (w : P → Option ℝ) (q p : ι × K → ℝ) (θ0 θ : P → ℝ)
    (hc : ContinuousAt (fun θ' => autograd (fun θ'' => lagrangian rhs w q p θ'') θ') θ)
    (hl : Tendsto (fun n => iterativeParameters rhs w q p n θ0) atTop (𝓝 θ)) :
    ∀ r, autograd (fun θ' => lagrangian rhs w q p θ') θ r = 0 := by
  have h1 : Tendsto (fun n => iterationStep rhs w q p (iterativeParameters rhs w q p n θ0)) atTop (𝓝 θ) := by
    refine (hl.comp (tendsto_add_atTop_nat 1)).congr fun n => ?_
    simp only [Function.comp_apply, iterativeParameters, Function.iterate_succ_apply']
  have h2 : Tendsto (fun n => iterationStep rhs w q p (iterativeParameters rhs w q p n θ0)) atTop (𝓝 (iterationStep rhs w q p θ)) := by
    have hs : ContinuousAt (iterationStep rhs w q p) θ := by
      unfold iterationStep
      refine continuousAt_pi.2 fun r => ?_
      exact (continuous_apply r).continuousAt.add (continuousAt_const.mul ((continuous_apply r).continuousAt.comp hc))
    exact hs.tendsto.comp hl
  exact (C73_fixed_points rhs w q p θ).1 (tendsto_nhds_unique h2 h1)

/-- The hypotheses are met: the iteration of the code with weight 1 converges and the gradient is continuous. -/
example (θ0 : Unit → ℝ) : ∀ r, autograd (fun θ' => lagrangian growth (fun _ => none) (fun _ => 2) (fun _ => 5) θ')
    (directParameters growth (fun _ => none) 0 (fun _ => 2) (fun _ => 5)) r = 0 := by
  refine C73_limit_is_critical growth _ _ _ θ0 _ ?_ (C33_converges growth_linear.affine _ (fun _ => by norm_num [weight]) 0 _ _ θ0)
  rw [funext fun θ' => (hasGrad_lagrangian growth_linear.affine (fun _ => none) (fun _ => 2) (fun _ => 5) θ').autograd_eq]
  exact continuousAt_pi.2 fun r => (continuousAt_const.mul (continuous_apply r).continuousAt).sub continuousAt_const

/-- **C73.** The reduced Lagrangian after `n` steps exceeds the minimum by the weighted squares of the remaining errors. -/
theorem C73_excess {rhs : Rhs (ι × K) P} (h : AffineInParams rhs) (w : P → Option ℝ) (hw : ∀ r, weight w r ≠ 0)
    (n : ℕ) (θ0 : P → ℝ) (q p : ι × K → ℝ) :
    reducedLagrangian rhs w n θ0 q p = Shooting.reducedLagrangian rhs w 0 q p +
      Fintype.card ι * ∑ r, weight w r / 2 * ((1 - 0.5 * weight w r) ^ n * (θ0 r - directParameters rhs w 0 q p r)) ^ 2 := by
  unfold reducedLagrangian Shooting.reducedLagrangian
  have := lagrangian_sub_direct h w hw 0 q p (iterativeParameters rhs w q p n θ0)
  simp only [iterativeParameters_eq h w hw 0] at this
  rw [← this]
  ring

omit [Fintype P] in
theorem differentiableAt_potCoeff {rhs : Rhs (ι × K) P} (p : ι × K → ℝ) {q : ι × K → ℝ}
    (hd : ∀ θ j, DifferentiableAt ℝ (fun q' => rhs θ q' j) q) (r : P) :
    DifferentiableAt ℝ (fun q' => potCoeff rhs q' p r) q := by
  unfold potCoeff coeff
  simp only [div_eq_mul_inv]
  refine DifferentiableAt.mul_const (DifferentiableAt.fun_sum fun j _ => ?_) _
  exact ((hd _ j).sub (hd _ j)).const_mul _

theorem differentiableAt_direct {rhs : Rhs (ι × K) P} (h : AffineInParams rhs) (w : P → Option ℝ) (θ0 : P → ℝ) (p : ι × K → ℝ) {q : ι × K → ℝ}
    (hd : ∀ θ j, DifferentiableAt ℝ (fun q' => rhs θ q' j) q) (r : P) :
    DifferentiableAt ℝ (fun q' => directParameters rhs w θ0 q' p r) q := by
  simp only [directParameters_eq h, div_eq_mul_inv]
  exact (differentiableAt_potCoeff p hd r).mul_const _

/-- **C73.** The derivative of the costate after `n` steps: the one with the exact parameters, minus a term in which every error of the initial parameters is
multiplied by `(1 - weight/2)^(2n)`.  (`autograd` of a parameter is its gradient with respect to the state.) -/
theorem C73_costate [Nonempty ι] {rhs : Rhs (ι × K) P} (h : AffineInParams rhs) (w : P → Option ℝ) (hw : ∀ r, weight w r ≠ 0)
    (n : ℕ) (θ0 : P → ℝ) (q p : ι × K → ℝ) (hd : ∀ θ j, DifferentiableAt ℝ (fun q' => rhs θ q' j) q) :
    HasGrad (fun q' => reducedLagrangian rhs w n θ0 q' p) (costateRhs rhs w n θ0 q p) q ∧ ∀ k,
      costateRhs rhs w n θ0 q p k = Shooting.costateRhs rhs w 0 q p k - Fintype.card ι * ∑ r, weight w r * (1 - 0.5 * weight w r) ^ (2 * n) *
        (θ0 r - directParameters rhs w 0 q p r) * autograd (fun q' => directParameters rhs w 0 q' p r) q k := by
  have h1 : HasGrad (fun q' => Shooting.reducedLagrangian rhs w 0 q' p) (Shooting.costateRhs rhs w 0 q p) q := by
    have hg : HasGrad (fun q' => ∑ j, p j * rhs (directParameters rhs w 0 q p) q' j) _ q :=
      HasGrad.sum (F := fun j q' => p j * rhs (directParameters rhs w 0 q p) q' j) fun j => (hasGrad_of_differentiableAt (hd _ j)).const_mul (p j)
    obtain ⟨e1, e2⟩ := C34_costate_gradient h w hw 0 q p hd hg
    rw [e2]
    exact e1
  have h2 : ∀ r, HasGrad (fun q' => θ0 r - directParameters rhs w 0 q' p r) (fun k => 0 - autograd (fun q' => directParameters rhs w 0 q' p r) q k) q :=
    fun r => (hasGrad_const _ q).sub (hasGrad_of_differentiableAt (differentiableAt_direct h w 0 p hd r))
  have h3 : HasGrad (fun q' => reducedLagrangian rhs w n θ0 q' p) (fun k => Shooting.costateRhs rhs w 0 q p k - Fintype.card ι * ∑ r, weight w r * (1 - 0.5 * weight w r) ^ (2 * n) *
        (θ0 r - directParameters rhs w 0 q p r) * autograd (fun q' => directParameters rhs w 0 q' p r) q k) q := by
    have hs : HasGrad (fun q' => ∑ r, weight w r / 2 * (1 - 0.5 * weight w r) ^ (2 * n) * ((θ0 r - directParameters rhs w 0 q' p r) * (θ0 r - directParameters rhs w 0 q' p r))) _ q :=
      HasGrad.sum (F := fun r q' => weight w r / 2 * (1 - 0.5 * weight w r) ^ (2 * n) * ((θ0 r - directParameters rhs w 0 q' p r) * (θ0 r - directParameters rhs w 0 q' p r)))
        fun r => ((h2 r).mul (h2 r)).const_mul _
    refine (h1.add (hs.const_mul (Fintype.card ι : ℝ))).congr (fun q' => ?_) fun k => ?_
    · rw [C73_excess h w hw]
      congr 2
      refine Finset.sum_congr rfl fun r _ => ?_
      ring
    · rw [sub_eq_add_neg, ← mul_neg, ← Finset.sum_neg_distrib]
      congr 2
      refine Finset.sum_congr rfl fun r _ => ?_
      ring
  have e : costateRhs rhs w n θ0 q p = _ := h3.autograd_eq
  exact ⟨by rw [e]; exact h3, fun k => by rw [e]⟩

/-- **C73.** With one common weight the error of the costate shrinks by the factor `(1 - weight/2)^2` per step, the error of the parameters (hence of the derivative
of the state) only by `1 - weight/2`. -/
theorem C73_error_squared [Nonempty ι] {rhs : Rhs (ι × K) P} (h : AffineInParams rhs) (w : P → Option ℝ) (c : ℝ) (hc : c ≠ 0) (hw : ∀ r, weight w r = c)
    (n : ℕ) (θ0 : P → ℝ) (q p : ι × K → ℝ) (hd : ∀ θ j, DifferentiableAt ℝ (fun q' => rhs θ q' j) q) (k : ι × K) :
    costateRhs rhs w n θ0 q p k - Shooting.costateRhs rhs w 0 q p k = (1 - c / 2) ^ (2 * n) * (costateRhs rhs w 0 θ0 q p k - Shooting.costateRhs rhs w 0 q p k) ∧
      stateRhs rhs w n θ0 q p k - rhs (directParameters rhs w 0 q p) q k = (1 - c / 2) ^ n * (rhs θ0 q k - rhs (directParameters rhs w 0 q p) q k) := by
  have hw' : ∀ r, weight w r ≠ 0 := fun r => by rw [hw]; exact hc
  have e : (1 - 0.5 * c : ℝ) = 1 - c / 2 := by ring
  constructor
  · rw [(C73_costate h w hw' n θ0 q p hd).2, (C73_costate h w hw' 0 θ0 q p hd).2]
    simp only [hw, e]
    rw [sub_sub_cancel_left, sub_sub_cancel_left, mul_neg, ← mul_assoc, mul_comm _ (Fintype.card ι : ℝ), mul_assoc (Fintype.card ι : ℝ), Finset.mul_sum Finset.univ _ ((1 - c / 2) ^ (2 * n))]
    refine congrArg (fun x : ℝ => -((Fintype.card ι : ℝ) * x)) (Finset.sum_congr rfl fun r _ => ?_)
    ring
  · unfold stateRhs
    rw [affine_coeff h (iterativeParameters rhs w q p n θ0), affine_coeff h (directParameters rhs w 0 q p), affine_coeff h θ0,
      add_sub_add_left_eq_sub, add_sub_add_left_eq_sub, ← Finset.sum_sub_distrib, ← Finset.sum_sub_distrib, Finset.mul_sum]
    refine Finset.sum_congr rfl fun r _ => ?_
    have := iterativeParameters_eq h w hw' 0 q p n θ0 r
    rw [hw, e] at this
    rw [← mul_sub, this]
    ring

/-- **C73.** With weights between 0 and 4 both derivatives tend to those of the exact parameters when the number of steps grows. -/
theorem C73_converges [Nonempty ι] {rhs : Rhs (ι × K) P} (h : AffineInParams rhs) (w : P → Option ℝ) (hw : ∀ r, 0 < weight w r ∧ weight w r < 4)
    (θ0 θ1 : P → ℝ) (q p : ι × K → ℝ) (hd : ∀ θ j, DifferentiableAt ℝ (fun q' => rhs θ q' j) q) :
    Tendsto (fun n => costateRhs rhs w n θ0 q p) atTop (𝓝 (Shooting.costateRhs rhs w 0 q p)) ∧
      Tendsto (fun n => stateRhs rhs w n θ1 q p) atTop (𝓝 (rhs (directParameters rhs w 0 q p) q)) := by
  have hw' : ∀ r, weight w r ≠ 0 := fun r => (hw r).1.ne'
  constructor
  · rw [tendsto_pi_nhds]
    intro k
    simp only [(C73_costate h w hw' _ θ0 q p hd).2]
    have : Tendsto (fun n : ℕ => (Fintype.card ι : ℝ) * ∑ r, weight w r * (1 - 0.5 * weight w r) ^ (2 * n) *
        (θ0 r - directParameters rhs w 0 q p r) * autograd (fun q' => directParameters rhs w 0 q' p r) q k) atTop (𝓝 ((Fintype.card ι : ℝ) * ∑ r : P, 0)) := by
      refine Tendsto.const_mul _ (tendsto_finsetSum _ fun r _ => ?_)
      have h1 : Tendsto (fun n : ℕ => (1 - 0.5 * weight w r) ^ (2 * n)) atTop (𝓝 0) := by
        simp only [pow_mul]
        refine tendsto_pow_atTop_nhds_zero_of_lt_one (sq_nonneg _) ?_
        have := hw r
        nlinarith [this.1, this.2]
      simpa using ((h1.const_mul (weight w r)).mul_const (θ0 r - directParameters rhs w 0 q p r)).mul_const (autograd (fun q' => directParameters rhs w 0 q' p r) q k)
    simpa using tendsto_const_nhds.sub this
  · have h1 := C33_converges h w hw 0 q p θ1
    rw [tendsto_pi_nhds] at h1 ⊢
    intro k
    unfold stateRhs
    rw [affine_coeff h (directParameters rhs w 0 q p)]
    refine Tendsto.congr (fun n => (affine_coeff h (iterativeParameters rhs w q p n θ1) q k).symm) ?_
    exact tendsto_const_nhds.add (tendsto_finsetSum _ fun r _ => (h1 r).const_mul _)

/-- The hypotheses are met: a right-hand side linear in its parameter, weight 1. -/
example (θ0 : Unit → ℝ) : Tendsto (fun n => costateRhs growth (fun _ => none) n θ0 (fun _ => 2) (fun _ => 5)) atTop
    (𝓝 (Shooting.costateRhs growth (fun _ => none) 0 (fun _ => 2) (fun _ => 5))) :=
  (C73_converges growth_linear.affine _ (fun _ => by norm_num [weight]) θ0 θ0 _ _ fun θ j => growth_differentiable θ j _).1

example (θ : Unit → ℝ) : iterationStep growth (fun _ => none) (fun _ => 2) (fun _ => 5) θ = θ ↔
    ∀ r, autograd (fun θ' => lagrangian growth (fun _ => none) (fun _ => 2) (fun _ => 5) θ') θ r = 0 := C73_fixed_points _ _ _ _ _

/-- **C73.** The parameters are created anew (at random) for every evaluation, and what was drawn remains visible: with one common weight, two draws give derivatives of the costate that
differ by `(1 - weight/2)^(2n)` times the difference they would make as fixed parameters, and derivatives of the state that differ by `(1 - weight/2)^n` times that difference. -/
theorem C73_draw [Nonempty ι] {rhs : Rhs (ι × K) P} (h : AffineInParams rhs) (w : P → Option ℝ) (c : ℝ) (hc : c ≠ 0) (hw : ∀ r, weight w r = c)
    (n : ℕ) (θ0 θ1 : P → ℝ) (q p : ι × K → ℝ) (hd : ∀ θ j, DifferentiableAt ℝ (fun q' => rhs θ q' j) q) (k : ι × K) :
    costateRhs rhs w n θ0 q p k - costateRhs rhs w n θ1 q p k = (1 - c / 2) ^ (2 * n) * (costateRhsFixed rhs w θ0 q p k - costateRhsFixed rhs w θ1 q p k) ∧
      stateRhs rhs w n θ0 q p k - stateRhs rhs w n θ1 q p k = (1 - c / 2) ^ n * (rhs θ0 q k - rhs θ1 q k) := by
  obtain ⟨a1, a2⟩ := C73_error_squared h w c hc hw n θ0 q p hd k
  obtain ⟨b1, b2⟩ := C73_error_squared h w c hc hw n θ1 q p hd k
  have z : ∀ θ, costateRhs rhs w 0 θ q p = costateRhsFixed rhs w θ q p := fun θ => rfl
  rw [z] at a1 b1
  constructor <;> linarith

/-- **C73.** A concrete case, with the five steps and the weight 1 of the code: drawing 0 or 1 for the only parameter changes the derivative of the costate, so two evaluations at the same
state and costate need not agree. -/
theorem C73_not_reproducible : ∃ (q p : Bool × Unit → ℝ) (θ0 θ1 : Unit → ℝ), costateRhs growth (fun _ => none) 5 θ0 q p ≠ costateRhs growth (fun _ => none) 5 θ1 q p ∧
    stateRhs growth (fun _ => none) 5 θ0 q p ≠ stateRhs growth (fun _ => none) 5 θ1 q p := by
  refine ⟨fun _ => 2, fun _ => 3, fun _ => 0, fun _ => 1, ?_⟩
  have h := C73_draw growth_linear.affine (fun _ => none) 1 one_ne_zero (fun _ => rfl) 5 (fun _ => 0) (fun _ => 1) (fun _ => 2) (fun _ => 3)
    (fun θ j => growth_differentiable θ j _) (true, ())
  have hf : ∀ θ : Unit → ℝ, costateRhsFixed growth (fun _ => none) θ (fun _ => 2) (fun _ => 3) = fun _ => -(θ () * 3) := by
    intro θ
    refine C34_fixed_parameters growth _ θ _ _ (fun j => growth_differentiable θ j _) ?_
    have : (fun q' : Bool × Unit → ℝ => ∑ j, 3 * growth θ q' j) = fun q' => ∑ j, θ () * 3 * q' j := by
      funext q'
      refine Finset.sum_congr rfl fun j _ => ?_
      simp only [growth]
      ring
    rw [this]
    exact hasGrad_linear (fun _ => θ () * 3) _
  rw [hf, hf] at h
  constructor
  · intro e
    rw [e] at h
    have := h.1
    norm_num at this
  · intro e
    rw [e] at h
    have := h.2
    norm_num [growth] at this

/-- Numbers for the raw check: the parameter after `n` steps of size `lr` is the exact one times `1 - (1 - lr)^n`. -/
theorem rawParameter_eq (lr : ℝ) (n : ℕ) (nl : ℝ → ℝ) (q p : ℝ) : rawParameterAutograd lr n nl q p = (1 - (1 - lr) ^ n) * (p * nl q) := by
  have hd : ∀ θ, deriv (rawLagrangian nl q p) θ = θ - p * nl q := by
    intro θ
    have h1 : HasDerivAt (fun θ : ℝ => 0.5 * θ * θ - p * θ * nl q) (0.5 * 1 * θ + 0.5 * θ * 1 - p * 1 * nl q) θ :=
      (((hasDerivAt_id θ).const_mul 0.5).mul (hasDerivAt_id θ)).sub (((hasDerivAt_id θ).const_mul p).mul_const (nl q))
    rw [show rawLagrangian nl q p = fun θ : ℝ => 0.5 * θ * θ - p * θ * nl q from rfl, h1.deriv]
    ring
  unfold rawParameterAutograd
  induction n with
  | zero => simp
  | succ n ih =>
    rw [Function.iterate_succ_apply', ih, hd]
    ring

/-- **C73.** The script `raw_fixed_point_check.py`, for any step size and number of steps: the derivative of the state is the exact one times `1 - (1 - lr)^n`, the derivative of
the costate is the exact one times `1 - (1 - lr)^(2n)`. -/
theorem C73_raw (lr : ℝ) (n : ℕ) (nl dnl : ℝ → ℝ) (q p : ℝ) (h : HasDerivAt nl (dnl q) q) :
    rawAutograd lr n nl q p = ((1 - (1 - lr) ^ n) * (p * nl q * nl q), (1 - (1 - lr) ^ (2 * n)) * -(dnl q * (p * nl q) * p)) := by
  unfold rawAutograd rawState rawReduced
  simp only [rawParameter_eq]
  refine Prod.ext (by ring) ?_
  have e : (fun q' => 0.5 * ((1 - (1 - lr) ^ n) * (p * nl q')) * ((1 - (1 - lr) ^ n) * (p * nl q')) - p * ((1 - (1 - lr) ^ n) * (p * nl q')) * nl q') =
      fun q' => -((1 - (1 - lr) ^ (2 * n)) * p ^ 2 / 2) * (nl q' * nl q') := by
    funext q'
    rw [mul_comm 2 n, pow_mul]
    ring
  simp only [e]
  have hm : HasDerivAt (fun q' => -((1 - (1 - lr) ^ (2 * n)) * p ^ 2 / 2) * (nl q' * nl q')) _ q := (h.mul h).const_mul _
  rw [hm.deriv]
  ring

/-- **C73.** With the numbers of the script: the hand-written equations (which use the factor 15/16 twice) have the right costate, but not the right state, unless that is zero. -/
theorem C73_raw_check (nl dnl : ℝ → ℝ) (q p : ℝ) (h : HasDerivAt nl (dnl q) q) :
    (rawAnalytic nl dnl q p).2 = (rawAutograd 0.5 2 nl q p).2 ∧
      (rawAnalytic nl dnl q p).1 = 5 / 4 * (rawAutograd 0.5 2 nl q p).1 ∧
      ((rawAnalytic nl dnl q p).1 = (rawAutograd 0.5 2 nl q p).1 ↔ p = 0 ∨ nl q = 0) := by
  rw [C73_raw 0.5 2 nl dnl q p h]
  simp only [rawAnalytic, rawState, rawCostate, rawParameter]
  refine ⟨by norm_num; ring, by norm_num; ring, ?_⟩
  have : 15 / 16 * (p * nl q) * nl q = (1 - (1 - 0.5) ^ 2) * (p * nl q * nl q) ↔ p * nl q * nl q = 0 := by
    constructor
    · intro h; norm_num at h; linarith
    · intro h; norm_num; linarith
  rw [this]
  simp only [mul_eq_zero]
  tauto

example : (rawAnalytic id (fun _ => 1) 2 3).1 ≠ (rawAutograd 0.5 2 id 2 3).1 :=
  fun h => by
    have := (C73_raw_check id (fun _ => 1) 2 3 (hasDerivAt_id _)).2.2.1 h
    norm_num at this

/-- **C73.** With step size 1 one step suffices: both derivatives are exact (as a comment of the script says). -/
theorem C73_raw_step_one (n : ℕ) (nl dnl : ℝ → ℝ) (q p : ℝ) (h : HasDerivAt nl (dnl q) q) :
    rawAutograd 1 (n + 1) nl q p = (p * nl q * nl q, -(dnl q * (p * nl q) * p)) := by
  rw [C73_raw 1 (n + 1) nl dnl q p h]
  have : 2 * (n + 1) ≠ 0 := by omega
  simp [zero_pow this]

end Verif.Iterated
