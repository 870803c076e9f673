import Verif.Shooting.Envelope
import Mathlib.Analysis.SpecificLimits.Basic
import Mathlib.Analysis.SpecialFunctions.ExpDeriv
import Mathlib.Analysis.SpecialFunctions.Trigonometric.DerivHyp
import Mathlib.Tactic.NormNum

/-!
# C32, C33, C35 and the general part of C34

Everything here holds for every right-hand side that is affine (or linear) in its parameters; `Verif.Models` shows that the
classes of `shooting_models.py` are.
-/

namespace Verif.Shooting
open Filter Topology Set

variable {ι K P : Type} [Fintype ι] [Fintype K] [Fintype P]

/-- A small right-hand side for the examples: every coordinate is multiplied by the one parameter. -/
def growth : Rhs (Bool × Unit) Unit := fun θ q j => θ () * q j

theorem growth_linear : LinearInParams growth := fun q j => ⟨fun _ => q j, fun θ => by simp [growth, mul_comm]⟩

omit [Fintype ι] [Fintype K] in
theorem LinearInParams.affine {f : Rhs (ι × K) P} (h : LinearInParams f) : AffineInParams f := fun q j => by
  obtain ⟨m, hm⟩ := h q j
  exact ⟨0, m, fun θ => by rw [hm, zero_add]⟩

/-! ## C32 -/

/-- C32: with positive weights the directly computed parameters are the only minimiser of kinetic minus
potential energy, wherever the freshly created parameters `θ0` start. -/
theorem C32_unique_minimiser {rhs : Rhs (ι × K) P} (h : AffineInParams rhs) (w : P → Option ℝ)
    (hw : ∀ r, 0 < weight w r) (θ0 : P → ℝ) (q p : ι × K → ℝ) :
    UniqueMinimiser (fun θ => kineticEnergy w θ - potentialEnergy rhs q p θ) (directParameters rhs w θ0 q p) := by
  intro θ hne
  have h1 := lagrangian_sub_direct h w (fun r => (hw r).ne') θ0 q p θ
  obtain ⟨r, hr⟩ := Function.ne_iff.1 hne
  have h2 : 0 < ∑ r, weight w r / 2 * (θ r - directParameters rhs w θ0 q p r) ^ 2 := by
    refine Finset.sum_pos' (fun r _ => mul_nonneg (half_pos (hw r)).le (sq_nonneg _)) ⟨r, Finset.mem_univ r, ?_⟩
    exact mul_pos (half_pos (hw r)) (by have := sub_ne_zero.2 hr; positivity)
  unfold lagrangian at h1
  simp only
  linarith

example : UniqueMinimiser (fun θ => kineticEnergy (fun _ : Unit => some (3 : ℝ)) θ - potentialEnergy growth (fun _ => 2) (fun _ => 5) θ)
    (directParameters growth (fun _ => some 3) (fun _ => 7) (fun _ => 2) (fun _ => 5)) :=
  C32_unique_minimiser growth_linear.affine _ (fun _ => by norm_num [weight]) _ _ _

/-- C32: the random initial values of the freshly created parameters have no influence. -/
theorem C32_independent_of_initialisation {rhs : Rhs (ι × K) P} (h : AffineInParams rhs) (w : P → Option ℝ)
    (θ0 θ1 : P → ℝ) (q p : ι × K → ℝ) :
    directParameters rhs w θ0 q p = directParameters rhs w θ1 q p := by
  funext r
  rw [directParameters_eq h, directParameters_eq h]

example : directParameters growth (fun _ => none) (fun _ => 7) (fun _ => 2) (fun _ => 5)
    = directParameters growth (fun _ => none) (fun _ => -1) (fun _ => 2) (fun _ => 5) :=
  C32_independent_of_initialisation growth_linear.affine _ _ _ _ _

/-- C32: the Lagrangian exceeds its minimum by half the weighted squared distance. -/
theorem C32_excess {rhs : Rhs (ι × K) P} (h : AffineInParams rhs) (w : P → Option ℝ)
    (hw : ∀ r, weight w r ≠ 0) (θ0 : P → ℝ) (q p : ι × K → ℝ) (θ : P → ℝ) :
    lagrangian rhs w q p θ = lagrangian rhs w q p (directParameters rhs w θ0 q p) +
      halfWeightedSquares (weight w) (θ - directParameters rhs w θ0 q p) := by
  have := lagrangian_sub_direct h w hw θ0 q p θ
  have e : halfWeightedSquares (weight w) (θ - directParameters rhs w θ0 q p) =
      ∑ r, weight w r / 2 * (θ r - directParameters rhs w θ0 q p r) ^ 2 := by
    unfold halfWeightedSquares
    rw [Finset.sum_div]
    exact Finset.sum_congr rfl fun r _ => by simp; ring
  rw [e]
  linarith

example (θ : Unit → ℝ) : lagrangian growth (fun _ => none) (fun _ => 2) (fun _ => 5) θ =
    lagrangian growth (fun _ => none) (fun _ => 2) (fun _ => 5) (directParameters growth (fun _ => none) 0 (fun _ => 2) (fun _ => 5)) +
      halfWeightedSquares (weight fun _ => none) (θ - directParameters growth (fun _ => none) 0 (fun _ => 2) (fun _ => 5)) :=
  C32_excess growth_linear.affine _ (fun _ => by norm_num [weight]) _ _ _ _

/-- C32: positivity is needed: with a negative weight there is no minimum at all. -/
theorem C32_negative_weight {rhs : Rhs (ι × K) P} (h : AffineInParams rhs) (w : P → Option ℝ)
    {r : P} (hr : weight w r < 0) (q p : ι × K → ℝ) (B : ℝ) : ∃ θ, lagrangian rhs w q p θ < B := by
  classical
  set g := potCoeff rhs q p r with hg
  set u := potentialEnergy rhs q p 0
  have key : ∀ x : ℝ, lagrangian rhs w q p (Pi.single r x) = weight w r / 2 * x ^ 2 - g * x - u := by
    intro x
    rw [lagrangian_eq h]
    congr 1
    rw [Finset.sum_eq_single r]
    · simp [hg]
    · intro b _ hb
      simp [hb]
    · simp
  set v := - (weight w r / 2) with hv
  have hvpos : 0 < v := by rw [hv]; linarith
  -- x = (|g| + |u| + |B| + 1) / v + 1
  set M := |g| + |u| + |B| + 1 with hM
  refine ⟨Pi.single r (M / v + 1), ?_⟩
  rw [key]
  have h1 := neg_abs_le g
  have h2 := neg_abs_le u
  have h3 := neg_abs_le B
  have hx : 1 ≤ M / v + 1 := by
    have : 0 ≤ M / v := by positivity
    linarith
  have hvx : v * (M / v + 1) = M + v := by field_simp
  have e : weight w r / 2 = -v := by rw [hv]; ring
  rw [e]
  have h5 : -v * (M / v + 1) ^ 2 - g * (M / v + 1) - u = -((M + v + g) * (M / v + 1)) - u := by
    rw [pow_two, ← hvx]
    ring
  rw [h5]
  have h6 : |u| + |B| + 1 + v ≤ M + v + g := by linarith
  have h7 : |u| + |B| + 1 + v ≤ (M + v + g) * (M / v + 1) := by
    have : 0 ≤ M + v + g := by
      have := abs_nonneg u; have := abs_nonneg B; linarith
    nlinarith
  linarith

example : ∃ θ, lagrangian growth (fun _ => some (-1)) (fun _ => 2) (fun _ => 5) θ < -100 :=
  C32_negative_weight growth_linear.affine _ (r := ()) (by norm_num [weight]) _ _ _

/-! ## C33 -/

/-- C33: each iteration multiplies the distance of each parameter to the direct solution by `|1 - 0.5 w|`. -/
theorem C33_error {rhs : Rhs (ι × K) P} (h : AffineInParams rhs) (w : P → Option ℝ) (hw : ∀ r, weight w r ≠ 0)
    (θ0 : P → ℝ) (q p : ι × K → ℝ) (n : ℕ) (θ : P → ℝ) (r : P) :
    |iterativeParameters rhs w q p n θ r - directParameters rhs w θ0 q p r| =
      |1 - 0.5 * weight w r| ^ n * |θ r - directParameters rhs w θ0 q p r| := by
  rw [iterativeParameters_eq h w hw θ0, abs_mul, abs_pow]

/-- The five iterations of the code with weight 1 leave 1/32 of the initial error. -/
example (θ : Unit → ℝ) : |iterativeParameters growth (fun _ => none) (fun _ => 2) (fun _ => 5) 5 θ () -
    directParameters growth (fun _ => none) 0 (fun _ => 2) (fun _ => 5) ()| =
    1 / 32 * |θ () - directParameters growth (fun _ => none) 0 (fun _ => 2) (fun _ => 5) ()| := by
  rw [C33_error growth_linear.affine _ (fun _ => by norm_num [weight]) 0]
  norm_num [weight, abs_of_pos]

/-- C33: weights in (0,4): the iteration converges to the direct solution. -/
theorem C33_converges {rhs : Rhs (ι × K) P} (h : AffineInParams rhs) (w : P → Option ℝ)
    (hw : ∀ r, 0 < weight w r ∧ weight w r < 4) (θ0 : P → ℝ) (q p : ι × K → ℝ) (θ : P → ℝ) :
    Tendsto (fun n => iterativeParameters rhs w q p n θ) atTop (𝓝 (directParameters rhs w θ0 q p)) := by
  rw [tendsto_pi_nhds]
  intro r
  have e : (fun n => iterativeParameters rhs w q p n θ r) = fun n =>
      (1 - 0.5 * weight w r) ^ n * (θ r - directParameters rhs w θ0 q p r) + directParameters rhs w θ0 q p r := by
    funext n
    rw [← iterativeParameters_eq h w (fun r => (hw r).1.ne') θ0]
    ring
  rw [e]
  have : |1 - 0.5 * weight w r| < 1 := by
    have := hw r
    rw [abs_lt]
    constructor <;> linarith
  simpa using ((tendsto_pow_atTop_nhds_zero_of_abs_lt_one this).mul_const _).add_const (directParameters rhs w θ0 q p r)

example (θ : Unit → ℝ) : Tendsto (fun n => iterativeParameters growth (fun _ => some 3.5) (fun _ => 2) (fun _ => 5) n θ) atTop
    (𝓝 (directParameters growth (fun _ => some 3.5) 0 (fun _ => 2) (fun _ => 5))) :=
  C33_converges growth_linear.affine _ (fun _ => by norm_num [weight]) _ _ _ _

/-- C33: weight 2: exact after one step (and after every later one). -/
theorem C33_weight_two {rhs : Rhs (ι × K) P} (h : AffineInParams rhs) (w : P → Option ℝ)
    (hw : ∀ r, weight w r = 2) (θ0 : P → ℝ) (q p : ι × K → ℝ) (n : ℕ) (θ : P → ℝ) :
    iterativeParameters rhs w q p (n + 1) θ = directParameters rhs w θ0 q p := by
  funext r
  have := iterativeParameters_eq h w (fun r => by rw [hw r]; norm_num) θ0 q p (n + 1) θ r
  rw [hw r] at this
  have e : (1 - 0.5 * 2 : ℝ) = 0 := by norm_num
  rw [e, zero_pow (Nat.succ_ne_zero n), zero_mul] at this
  linarith

example (θ : Unit → ℝ) : iterativeParameters growth (fun _ => some 2) (fun _ => 2) (fun _ => 5) 5 θ =
    directParameters growth (fun _ => some 2) 0 (fun _ => 2) (fun _ => 5) :=
  C33_weight_two growth_linear.affine _ (fun _ => by norm_num [weight]) _ _ _ 4 _

/-- C33: a parameter with weight at least 4 (or negative) does not converge, unless it started at the solution. -/
theorem C33_diverges {rhs : Rhs (ι × K) P} (h : AffineInParams rhs) (w : P → Option ℝ) (hw : ∀ r, weight w r ≠ 0)
    {r : P} (hr : 4 ≤ weight w r ∨ weight w r < 0) (θ0 : P → ℝ) (q p : ι × K → ℝ) (θ : P → ℝ)
    (hθ : θ r ≠ directParameters rhs w θ0 q p r) :
    ¬ Tendsto (fun n => iterativeParameters rhs w q p n θ) atTop (𝓝 (directParameters rhs w θ0 q p)) := by
  intro hlim
  have h1 := (tendsto_pi_nhds.1 hlim) r
  have h2 : Tendsto (fun n => |iterativeParameters rhs w q p n θ r - directParameters rhs w θ0 q p r|) atTop (𝓝 0) := by
    have := (h1.sub_const (directParameters rhs w θ0 q p r)).abs
    simpa using this
  have h3 : 0 < |θ r - directParameters rhs w θ0 q p r| := abs_pos.2 (sub_ne_zero.2 hθ)
  have h4 : 1 ≤ |1 - 0.5 * weight w r| := by
    rcases hr with hr | hr
    · rw [le_abs]; right; linarith
    · rw [le_abs]; left; linarith
  have h5 : ∀ n, |θ r - directParameters rhs w θ0 q p r| ≤
      |iterativeParameters rhs w q p n θ r - directParameters rhs w θ0 q p r| := by
    intro n
    rw [C33_error h w hw θ0]
    exact le_mul_of_one_le_left h3.le (one_le_pow₀ h4)
  exact absurd (ge_of_tendsto' h2 h5) (not_le.2 h3)

example : ¬ Tendsto (fun n => iterativeParameters growth (fun _ => some 4) (fun _ => 0) (fun _ => 5) n (fun _ => 1)) atTop
    (𝓝 (directParameters growth (fun _ => some 4) 0 (fun _ => 0) (fun _ => 5))) :=
  C33_diverges growth_linear.affine _ (fun _ => by norm_num [weight]) (r := ()) (.inl (by norm_num [weight])) _ _ _ _ (by
    rw [directParameters_eq growth_linear.affine]
    norm_num [potCoeff, coeff, growth, weight])

/-! ## C34, the part that is common to all models -/

/-- C34: the costate equation obtained by differentiating the reduced Lagrangian *through* the parameters
equals the negative gradient of `∑ costate * rhs` with the parameters held fixed. -/
theorem C34_costate_gradient [Nonempty ι] {rhs : Rhs (ι × K) P} (h : AffineInParams rhs) (w : P → Option ℝ)
    (hw : ∀ r, weight w r ≠ 0) (θ0 : P → ℝ) (q p : ι × K → ℝ)
    (hd : ∀ θ j, DifferentiableAt ℝ (fun q' => rhs θ q' j) q) {g : ι × K → ℝ}
    (hg : HasGrad (fun q' => ∑ j, p j * rhs (directParameters rhs w θ0 q p) q' j) g q) :
    HasGrad (fun q' => reducedLagrangian rhs w θ0 q' p) (fun k => - g k) q ∧
      costateRhs rhs w θ0 q p = fun k => - g k := by
  have h1 := hasGrad_reduced h w hw θ0 p hd
  have h2 : HasGrad (fun q' => ∑ j, p j * rhs (directParameters rhs w θ0 q p) q' j) _ q :=
    HasGrad.sum (F := fun j q' => p j * rhs (directParameters rhs w θ0 q p) q' j) fun j =>
      (hasGrad_of_differentiableAt (hd (directParameters rhs w θ0 q p) j)).const_mul (p j)
  have e := hg.unique h2
  have h3 : HasGrad (fun q' => reducedLagrangian rhs w θ0 q' p) (fun k => - g k) q := by
    rw [e]
    exact h1
  exact ⟨h3, h3.autograd_eq⟩

theorem growth_differentiable (θ : Unit → ℝ) (j : Bool × Unit) (q : Bool × Unit → ℝ) :
    DifferentiableAt ℝ (fun q' => growth θ q' j) q := by
  unfold growth
  fun_prop

theorem growth_grad (θ : Unit → ℝ) (q p : Bool × Unit → ℝ) :
    HasGrad (fun q' => ∑ j, p j * growth θ q' j) (fun k => p k * θ ()) q :=
  (hasGrad_linear (fun k => p k * θ ()) q).congr (fun y => Finset.sum_congr rfl fun j _ => by simp [growth]; ring) fun _ => rfl

example : costateRhs growth (fun _ => none) 0 (fun _ => 2) (fun _ => 5) =
    fun _ => -(5 * directParameters growth (fun _ => none) 0 (fun _ => 2) (fun _ => 5) ()) :=
  (C34_costate_gradient growth_linear.affine (fun _ => none) (fun _ => by norm_num [weight]) 0 (fun _ => 2) (fun _ => 5)
    (fun θ j => growth_differentiable θ j _) (growth_grad _ _ _)).2

/-- C34: with given parameters (RNN mode, or external ones) the costate equation is the same negative gradient; in
particular holding the direct parameters of the current state fixed gives the same result as differentiating through them. -/
theorem C34_fixed_parameters [Nonempty ι] (rhs : Rhs (ι × K) P) (w : P → Option ℝ) (θ : P → ℝ) (q p : ι × K → ℝ)
    {g : ι × K → ℝ} (hd : ∀ j, DifferentiableAt ℝ (fun q' => rhs θ q' j) q)
    (hg : HasGrad (fun q' => ∑ j, p j * rhs θ q' j) g q) :
    costateRhsFixed rhs w θ q p = fun k => - g k := by
  have h1 := hasGrad_reducedFixed rhs w θ p hd
  have h2 : HasGrad (fun q' => ∑ j, p j * rhs θ q' j) _ q :=
    HasGrad.sum (F := fun j q' => p j * rhs θ q' j) fun j => (hasGrad_of_differentiableAt (hd j)).const_mul (p j)
  rw [hg.unique h2]
  exact h1.autograd_eq

example : costateRhsFixed growth (fun _ => none) (fun _ => 3) (fun _ => 2) (fun _ => 5) = fun _ => -(5 * 3 : ℝ) :=
  C34_fixed_parameters growth (fun _ => none) (fun _ => 3) (fun _ => 2) (fun _ => 5)
    (fun j => growth_differentiable _ j _) (growth_grad _ _ _)

/-! ## C35 -/

/-- A solution of the shooting equations on `[a,b]`: at each time the parameters are computed from the state and costate of that
time (starting from arbitrary freshly created parameters `θ0 t`). -/
structure Trajectory (rhs : Rhs (ι × K) P) (w : P → Option ℝ) (θ0 : ℝ → P → ℝ) (q p : ℝ → ι × K → ℝ) (a b : ℝ) : Prop where
  state : ∀ t ∈ Icc a b, ∀ j, HasDerivWithinAt (fun s => q s j)
    (rhs (directParameters rhs w (θ0 t) (q t) (p t)) (q t) j) (Icc a b) t
  costate : ∀ t ∈ Icc a b, ∀ j, HasDerivWithinAt (fun s => p s j) (costateRhs rhs w (θ0 t) (q t) (p t) j) (Icc a b) t

theorem reducedLagrangian_indep {rhs : Rhs (ι × K) P} (h : AffineInParams rhs) (w : P → Option ℝ) (θ0 θ1 : P → ℝ)
    (q p : ι × K → ℝ) : reducedLagrangian rhs w θ0 q p = reducedLagrangian rhs w θ1 q p := by
  unfold reducedLagrangian
  rw [C32_independent_of_initialisation h w θ0 θ1]

/-- C35: along every exact trajectory the Lagrangian at the computed parameters (the negative Hamiltonian) is constant. -/
theorem C35_lagrangian_constant [Nonempty ι] {rhs : Rhs (ι × K) P} (h : AffineInParams rhs) (w : P → Option ℝ)
    (hw : ∀ r, weight w r ≠ 0) (hd : ∀ θ q j, DifferentiableAt ℝ (fun q' => rhs θ q' j) q)
    {θ0 : ℝ → P → ℝ} {q p : ℝ → ι × K → ℝ} {a b : ℝ} (tr : Trajectory rhs w θ0 q p a b) {t : ℝ} (ht : t ∈ Icc a b) :
    lagrangian rhs w (q t) (p t) (directParameters rhs w (θ0 t) (q t) (p t)) =
      lagrangian rhs w (q a) (p a) (directParameters rhs w (θ0 a) (q a) (p a)) := by
  have hN : (Fintype.card ι : ℝ) ≠ 0 := by exact_mod_cast Fintype.card_ne_zero
  have hder : ∀ s ∈ Icc a b,
      HasDerivWithinAt (fun s => reducedLagrangian rhs w 0 (q s) (p s)) 0 (Icc a b) s := by
    intro s hs
    have hq : HasDerivWithinAt q (rhs (directParameters rhs w (θ0 s) (q s) (p s)) (q s)) (Icc a b) s :=
      hasDerivWithinAt_pi.2 (tr.state s hs)
    have hp : HasDerivWithinAt p (costateRhs rhs w (θ0 s) (q s) (p s)) (Icc a b) s :=
      hasDerivWithinAt_pi.2 (tr.costate s hs)
    obtain ⟨D, hD, hv⟩ := hasFDerivAt_pairing (p s)
      (fun j => hd (directParameters rhs w (θ0 s) (q s) (p s)) (q s) j)
    have h1 := hasFDerivAt_reduced h w hw (θ0 s) (p s) (fun θ j => hd θ (q s) j)
    rw [hD.fderiv] at h1
    have h2 := HasFDerivAt.comp_hasDerivWithinAt s h1 (hq.prodMk hp)
    have h3 : (-D) (rhs (directParameters rhs w (θ0 s) (q s) (p s)) (q s), costateRhs rhs w (θ0 s) (q s) (p s)) = 0 := by
      rw [neg_apply, hv]
      have e : costateRhs rhs w (θ0 s) (q s) (p s) = _ := (hasGrad_reduced h w hw (θ0 s) (p s) (fun θ j => hd θ (q s) j)).autograd_eq
      rw [e]
      simp
    rw [h3] at h2
    refine h2.congr (fun y _ => ?_) ?_ <;> exact reducedLagrangian_indep h w _ _ _ _
  have hc := constant_of_has_deriv_right_zero (f := fun s => reducedLagrangian rhs w 0 (q s) (p s))
    (fun s hs => (hder s hs).continuousWithinAt)
    (fun s hs => (hder s (Ico_subset_Icc_self hs)).mono_of_mem_nhdsWithin (Icc_mem_nhdsGE_of_mem hs)) t ht
  have h0 : reducedLagrangian rhs w (θ0 t) (q t) (p t) = reducedLagrangian rhs w (θ0 a) (q a) (p a) := by
    rw [reducedLagrangian_indep h w (θ0 t) 0, reducedLagrangian_indep h w (θ0 a) 0]
    exact hc
  unfold reducedLagrangian at h0
  exact mul_left_cancel₀ hN h0

/-- For a right-hand side linear in the parameters the Lagrangian at the computed parameters is minus the kinetic energy. -/
theorem lagrangian_direct_linear {rhs : Rhs (ι × K) P} (h : LinearInParams rhs) (w : P → Option ℝ)
    (hw : ∀ r, weight w r ≠ 0) (θ0 : P → ℝ) (q p : ι × K → ℝ) :
    lagrangian rhs w q p (directParameters rhs w θ0 q p) = - kineticEnergy w (directParameters rhs w θ0 q p) := by
  have h0 : potentialEnergy rhs q p 0 = 0 := by
    rw [potentialEnergy_eq]
    have : ∀ j, rhs 0 q j = 0 := fun j => by
      obtain ⟨m, hm⟩ := h q j
      rw [hm]
      simp
    simp [this]
  rw [lagrangian_eq h.affine, h0, kineticEnergy_eq, sub_zero, ← Finset.sum_neg_distrib]
  refine Finset.sum_congr rfl fun r _ => ?_
  rw [directParameters_eq h.affine]
  have := hw r
  field_simp
  ring

/-- C35: along every exact trajectory the norm penalty (the kinetic energy of the computed parameters) has at all times the value
recorded at the initial time. -/
theorem C35_norm_penalty_constant [Nonempty ι] {rhs : Rhs (ι × K) P} (h : LinearInParams rhs) (w : P → Option ℝ)
    (hw : ∀ r, weight w r ≠ 0) (hd : ∀ θ q j, DifferentiableAt ℝ (fun q' => rhs θ q' j) q)
    {θ0 : ℝ → P → ℝ} {q p : ℝ → ι × K → ℝ} {a b : ℝ} (tr : Trajectory rhs w θ0 q p a b) {t : ℝ} (ht : t ∈ Icc a b) :
    kineticEnergy w (directParameters rhs w (θ0 t) (q t) (p t)) =
      kineticEnergy w (directParameters rhs w (θ0 a) (q a) (p a)) := by
  have := C35_lagrangian_constant h.affine w hw hd tr ht
  rw [lagrangian_direct_linear h w hw, lagrangian_direct_linear h w hw] at this
  linarith

theorem growth_direct (θ0 : Unit → ℝ) (q p : Bool × Unit → ℝ) (r : Unit) :
    directParameters growth (fun _ => none) θ0 q p r =
      (p (true, ()) * q (true, ()) + p (false, ()) * q (false, ())) / 2 := by
  rw [directParameters_eq growth_linear.affine]
  simp [potCoeff, coeff, growth, weight, Fintype.sum_prod_type]

theorem growth_costate (θ0 : Unit → ℝ) (q p : Bool × Unit → ℝ) :
    costateRhs growth (fun _ => none) θ0 q p =
      fun k => -(p k * directParameters growth (fun _ => none) θ0 q p ()) :=
  (C34_costate_gradient growth_linear.affine (fun _ => none) (fun _ => by norm_num [weight]) θ0 q p
    (fun θ j => growth_differentiable θ j _) (growth_grad _ _ _)).2

/-- A trajectory of the small example: `q = exp (3 t)`, `p = 3 exp (-3 t)` for both particles. -/
theorem growth_trajectory : Trajectory growth (fun _ => none) (fun _ _ => 0) (fun t _ => Real.exp (3 * t))
    (fun t _ => 3 * Real.exp (-(3 * t))) 0 1 := by
  have hpar : ∀ t : ℝ, directParameters growth (fun _ => none) (fun _ => 0) (fun _ => Real.exp (3 * t))
      (fun _ => 3 * Real.exp (-(3 * t))) () = 3 := by
    intro t
    rw [growth_direct, mul_assoc, ← Real.exp_add]
    norm_num
  have h3 : ∀ t : ℝ, HasDerivAt (fun s : ℝ => 3 * s) 3 t := fun t => by
    simpa using (hasDerivAt_id' t).const_mul (3 : ℝ)
  constructor
  · intro t _ j
    have := (h3 t).exp
    refine HasDerivAt.hasDerivWithinAt ?_
    unfold growth at *
    simp only [hpar]
    rwa [mul_comm]
  · intro t _ j
    have := ((h3 t).neg.exp).const_mul 3
    refine HasDerivAt.hasDerivWithinAt ?_
    rw [growth_costate]
    refine this.congr_deriv ?_
    change _ = -(3 * Real.exp (-(3 * t)) * directParameters growth (fun _ => none) (fun _ => 0)
      (fun _ => Real.exp (3 * t)) (fun _ => 3 * Real.exp (-(3 * t))) ())
    rw [hpar]
    simp
    ring

example : kineticEnergy (fun _ => none) (directParameters growth (fun _ => none) (fun _ => 0) (fun _ => Real.exp (3 * 1))
    (fun _ => 3 * Real.exp (-(3 * 1)))) =
    kineticEnergy (fun _ => none) (directParameters growth (fun _ => none) (fun _ => 0) (fun _ => Real.exp (3 * 0))
      (fun _ => 3 * Real.exp (-(3 * 0)))) :=
  C35_norm_penalty_constant growth_linear (fun _ => none) (fun _ => by norm_num [weight])
    (fun θ q j => growth_differentiable θ j q) growth_trajectory (t := 1) (by norm_num)

/-- C35 is about exact trajectories: one explicit Euler step changes the norm penalty. -/
theorem C35_euler_not_constant : ∃ (q p : Bool × Unit → ℝ) (s : ℝ),
    let θ := directParameters growth (fun _ => none) 0 q p
    let q' := fun j => q j + s * growth θ q j
    let p' := fun j => p j + s * costateRhs growth (fun _ => none) 0 q p j
    kineticEnergy (fun _ => none) (directParameters growth (fun _ => none) 0 q' p') ≠ kineticEnergy (fun _ => none) θ := by
  refine ⟨fun _ => 1, fun _ => 1, 1, ?_⟩
  simp only [growth_costate]
  norm_num [kineticEnergy, growth_direct, growth, weight]

/-- The small right-hand side with dampening `- q`: affine but not linear in the parameter. -/
def dampened : Rhs (Unit × Unit) Unit := fun θ q j => θ () - q j

/-- C35 needs linearity: with a parameter-free term (dampening) the norm penalty is not constant along
exact trajectories; only the Lagrangian is. -/
theorem C35_dampening_not_constant : ∃ (q p : ℝ → Unit × Unit → ℝ), Trajectory dampened (fun _ => none) (fun _ _ => 0) q p 0 1 ∧
    kineticEnergy (fun _ => none) (directParameters dampened (fun _ => none) (fun _ => 0) (q 1) (p 1)) ≠
      kineticEnergy (fun _ => none) (directParameters dampened (fun _ => none) (fun _ => 0) (q 0) (p 0)) := by
  have ha : AffineInParams dampened := fun q j => ⟨- q j, fun _ => 1, fun θ => by simp [dampened]; ring⟩
  have hpar : ∀ q p : Unit × Unit → ℝ, directParameters dampened (fun _ => none) (fun _ => 0) q p () = p ((), ()) := by
    intro q p
    rw [directParameters_eq ha]
    simp [potCoeff, coeff, dampened, weight, Fintype.sum_prod_type]
  have hco : ∀ q p : Unit × Unit → ℝ, costateRhs dampened (fun _ => none) (fun _ => 0) q p = p := by
    intro q p
    have hg : HasGrad (fun q' => ∑ j, p j * dampened (directParameters dampened (fun _ => none) (fun _ => 0) q p) q' j) (fun k => - p k) q := by
      have := (hasGrad_const (∑ j, p j * directParameters dampened (fun _ => none) (fun _ => 0) q p ()) q).sub
        (hasGrad_linear p q)
      refine this.congr (fun y => ?_) (fun k => by simp)
      rw [← Finset.sum_sub_distrib]
      exact Finset.sum_congr rfl fun j _ => by simp [dampened]; ring
    have := (C34_costate_gradient ha (fun _ => none) (fun _ => by norm_num [weight]) (fun _ => 0) q p
      (fun θ j => by unfold dampened; fun_prop) hg).2
    rw [this]
    simp
  refine ⟨fun t _ => Real.sinh t, fun t _ => Real.exp t, ⟨?_, ?_⟩, ?_⟩
  · intro t _ j
    refine HasDerivAt.hasDerivWithinAt ?_
    simp only [dampened, hpar]
    refine (Real.hasDerivAt_sinh t).congr_deriv ?_
    rw [Real.cosh_eq, Real.sinh_eq]
    ring
  · intro t _ j
    rw [hco]
    exact (Real.hasDerivAt_exp t).hasDerivWithinAt
  · simp only [kineticEnergy, Fintype.sum_unique, hpar, weight]
    have h1 : (1 : ℝ) < Real.exp 1 := by
      rw [← Real.exp_zero]
      exact Real.exp_lt_exp.2 (by norm_num)
    intro h
    simp at h
    have : (Real.exp 1) ^ 2 = 1 := by linarith
    nlinarith

end Verif.Shooting
