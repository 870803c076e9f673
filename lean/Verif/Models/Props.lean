import Verif.Models.Classes
import Verif.Activation.Props

/-!
# C34 for the model classes, and C32, C35 for them

`directParameters` and `costateRhs` are the computations by automatic differentiation (`Verif.Shooting.Model`);
`…Params` and `…Costate` are the hand-written formulas of the classes.  All sizes, numbers of particles, nonlinearities, states and
costates are arbitrary.  The weights `w` may differ for every parameter (in the code there is one per tensor).
-/

set_option linter.unusedSectionVars false

namespace Verif.Models
open Verif.Shooting Verif.Activation Set

variable {ι C D E : Type} [Fintype ι] [Fintype C] [Fintype D] [Fintype E]

/-! ## The classes are linear (or affine) in their parameters -/

theorem linear_upDown (nl : ℝ → ℝ) : LinearInParams (upDown nl : Rhs (ι × Two C D E) _) :=
  linear_of_pairing _ fun q p θ => pairing_upDown nl q p θ

theorem linear_universal (nl : ℝ → ℝ) : LinearInParams (universal nl : Rhs (ι × Two C D E) _) :=
  linear_of_pairing _ fun q p θ => pairing_universal nl q p θ

theorem linear_periodic (nl : ℝ → ℝ) : LinearInParams (periodic nl : Rhs (ι × Two C D E) _) :=
  linear_of_pairing _ fun q p θ => pairing_periodic nl q p θ

theorem affine_general (nl : ℝ → ℝ) (damp : ℝ) : AffineInParams (general nl damp : Rhs (ι × Two C D E) _) :=
  affine_of_pairing _ _ fun q p θ => pairing_general nl damp q p θ

theorem linear_general (nl : ℝ → ℝ) : LinearInParams (general nl 0 : Rhs (ι × Two C D E) _) :=
  linear_of_pairing _ fun q p θ => by
    rw [pairing_general]
    have : pair (q2 p) (fun i c e => (0 : ℝ) * q2 q i c e) = 0 := by simp [pair]
    rw [this, neg_zero, zero_add]

theorem affine_dampenedQ2 (nl : ℝ → ℝ) (damp : ℝ) : AffineInParams (dampenedQ2 nl damp : Rhs (ι × Two C D E) _) :=
  affine_of_pairing _ _ fun q p θ => pairing_dampenedQ2 nl damp q p θ

theorem linear_simple (nl : ℝ → ℝ) : LinearInParams (simple nl : Rhs (ι × (C × D)) _) :=
  linear_of_pairing _ fun q p θ => pairing_simple nl q p θ

theorem linear_debugSimple (nl : ℝ → ℝ) : LinearInParams (debugSimple nl : Rhs (ι × Two C D D) _) :=
  linear_of_pairing _ fun q p θ => pairing_debugSimple nl q p θ

theorem linear_symmetrized (nl : ℝ → ℝ) : LinearInParams (symmetrized nl : Rhs (ι × Three C D E) _) :=
  linear_of_pairing _ fun q p θ => pairing_symmetrized nl q p θ

theorem linear_coeff {O I : Type} [Fintype O] [Fintype I] (x : T3 ι C I) (i : ι) (c : C) (o : O) :
    ∃ m : Layer O I → ℝ, ∀ θ, linear θ x i c o = ∑ r, m r * θ r := by
  classical
  refine ⟨fun r => if r.1 = o then (match r.2 with | some j => x i c j | none => 1) else 0, fun θ => ?_⟩
  simp only [Fintype.sum_prod_type, Fintype.sum_option, ite_mul, zero_mul]
  rw [Finset.sum_eq_single o]
  · simp [linear, add_comm]
  · intro b _ hb
    simp [hb]
  · simp

theorem affine_dampenedUpDown (nl : ℝ → ℝ) : AffineInParams (dampenedUpDown nl : Rhs (ι × Four C D E) _) := by
  intro q k
  rcases k with ⟨i, (⟨c, d⟩ | ⟨c, e⟩) | u⟩
  · obtain ⟨m, hm⟩ := linear_coeff (O := D) (map nl (d2 q)) i c d
    refine ⟨- (nl (c1 q i) * d1 q i c d), Sum.elim m 0, fun θ => ?_⟩
    simp only [dampenedUpDown, hm, Fintype.sum_sum_type, Sum.elim_inl, Sum.elim_inr, Pi.zero_apply, zero_mul,
      Finset.sum_const_zero, add_zero]
    ring
  · obtain ⟨m, hm⟩ := linear_coeff (O := E) (map nl (d1 q)) i c e
    refine ⟨- (nl (c2 q i) * d2 q i c e), Sum.elim 0 m, fun θ => ?_⟩
    simp only [dampenedUpDown, hm, Fintype.sum_sum_type, Sum.elim_inl, Sum.elim_inr, Pi.zero_apply, zero_mul,
      Finset.sum_const_zero, zero_add]
    ring
  · exact ⟨0, 0, fun θ => by simp [dampenedUpDown]⟩

/-- C32: for each of the vector classes the parameters computed by automatic differentiation are the unique minimiser of the
Lagrangian, for all positive weights, states and costates. -/
theorem C32_model_classes (nl : ℝ → ℝ) (damp : ℝ) :
    (∀ w θ0 q p, (∀ r, 0 < weight w r) →
      UniqueMinimiser (lagrangian (simple nl : Rhs (ι × (C × D)) _) w q p) (directParameters (simple nl) w θ0 q p)) ∧
    (∀ w θ0 q p, (∀ r, 0 < weight w r) →
      UniqueMinimiser (lagrangian (upDown nl : Rhs (ι × Two C D E) _) w q p) (directParameters (upDown nl) w θ0 q p)) ∧
    (∀ w θ0 q p, (∀ r, 0 < weight w r) →
      UniqueMinimiser (lagrangian (universal nl : Rhs (ι × Two C D E) _) w q p) (directParameters (universal nl) w θ0 q p)) ∧
    (∀ w θ0 q p, (∀ r, 0 < weight w r) →
      UniqueMinimiser (lagrangian (general nl damp : Rhs (ι × Two C D E) _) w q p) (directParameters (general nl damp) w θ0 q p)) ∧
    (∀ w θ0 q p, (∀ r, 0 < weight w r) →
      UniqueMinimiser (lagrangian (periodic nl : Rhs (ι × Two C D E) _) w q p) (directParameters (periodic nl) w θ0 q p)) ∧
    (∀ w θ0 q p, (∀ r, 0 < weight w r) →
      UniqueMinimiser (lagrangian (dampenedQ2 nl damp : Rhs (ι × Two C D E) _) w q p) (directParameters (dampenedQ2 nl damp) w θ0 q p)) ∧
    (∀ w θ0 q p, (∀ r, 0 < weight w r) →
      UniqueMinimiser (lagrangian (symmetrized nl : Rhs (ι × Three C D E) _) w q p) (directParameters (symmetrized nl) w θ0 q p)) ∧
    (∀ w θ0 q p, (∀ r, 0 < weight w r) →
      UniqueMinimiser (lagrangian (dampenedUpDown nl : Rhs (ι × Four C D E) _) w q p) (directParameters (dampenedUpDown nl) w θ0 q p)) :=
  ⟨fun w θ0 q p hw => C32_unique_minimiser (linear_simple nl).affine w hw θ0 q p,
    fun w θ0 q p hw => C32_unique_minimiser (linear_upDown nl).affine w hw θ0 q p,
    fun w θ0 q p hw => C32_unique_minimiser (linear_universal nl).affine w hw θ0 q p,
    fun w θ0 q p hw => C32_unique_minimiser (affine_general nl damp) w hw θ0 q p,
    fun w θ0 q p hw => C32_unique_minimiser (linear_periodic nl).affine w hw θ0 q p,
    fun w θ0 q p hw => C32_unique_minimiser (affine_dampenedQ2 nl damp) w hw θ0 q p,
    fun w θ0 q p hw => C32_unique_minimiser (linear_symmetrized nl).affine w hw θ0 q p,
    fun w θ0 q p hw => C32_unique_minimiser (affine_dampenedUpDown nl) w hw θ0 q p⟩

example : ∀ r : Layer Bool Bool, 0 < weight (fun _ => some (2 : ℝ)) r := fun _ => by norm_num [weight]

/-! ## C34: the costate equations, any particle dimension -/

theorem costate_of_grad [Nonempty ι] {K P : Type} [Fintype K] [Fintype P] {f : Rhs (ι × K) P} (ha : AffineInParams f)
    {w : P → Option ℝ} (hw : ∀ r, weight w r ≠ 0) (θ0 : P → ℝ) {q p : ι × K → ℝ}
    (hd : ∀ θ k, DifferentiableAt ℝ (fun q' => f θ q' k) q) {cost : (P → ℝ) → ι × K → ℝ}
    (hg : ∀ θ, HasGrad (fun q' => ∑ k, p k * f θ q' k) (fun k => - cost θ k) q) :
    costateRhs f w θ0 q p = cost (directParameters f w θ0 q p) ∧ ∀ θ, costateRhsFixed f w θ q p = cost θ := by
  constructor
  · rw [(C34_costate_gradient ha w hw θ0 q p hd (hg _)).2]
    simp
  · intro θ
    rw [C34_fixed_parameters f w θ q p (hd θ) (hg θ)]
    simp

/-- C34, Simple: the hand-written costate equation is the differentiated one, with computed and with given parameters. -/
theorem C34_simple_costate [Nonempty ι] {nl dnl : ℝ → ℝ} {q : ι × (C × D) → ℝ}
    (h : ∀ i c d, HasDerivAt nl (dnl (one q i c d)) (one q i c d)) {w : Layer D D → Option ℝ} (hw : ∀ r, weight w r ≠ 0)
    (θ0 : Layer D D → ℝ) (p : ι × (C × D) → ℝ) :
    costateRhs (simple nl) w θ0 q p = simpleCostate dnl (directParameters (simple nl) w θ0 q p) q p ∧
      ∀ θ, costateRhsFixed (simple nl) w θ q p = simpleCostate dnl θ q p :=
  costate_of_grad (cost := fun θ => simpleCostate dnl θ q p) (linear_simple nl).affine hw θ0
    (diff_simple fun i c d => (h i c d).differentiableAt) (grad_simple h p)

/-- C34, UpDown. -/
theorem C34_upDown_costate [Nonempty ι] {nl dnl : ℝ → ℝ} {q : ι × Two C D E → ℝ}
    (h : ∀ i c e, HasDerivAt nl (dnl (q2 q i c e)) (q2 q i c e)) {w : UpDownPar D E → Option ℝ} (hw : ∀ r, weight w r ≠ 0)
    (θ0 : UpDownPar D E → ℝ) (p : ι × Two C D E → ℝ) :
    costateRhs (upDown nl) w θ0 q p = upDownCostate dnl (directParameters (upDown nl) w θ0 q p) q p ∧
      ∀ θ, costateRhsFixed (upDown nl) w θ q p = upDownCostate dnl θ q p :=
  costate_of_grad (cost := fun θ => upDownCostate dnl θ q p) (linear_upDown nl).affine hw θ0
    (diff_upDown fun i c d => (h i c d).differentiableAt) (grad_upDown h p)

/-- C34, UpDownUniversal. -/
theorem C34_universal_costate [Nonempty ι] {nl dnl : ℝ → ℝ} {q : ι × Two C D E → ℝ}
    (h : ∀ i c e, HasDerivAt nl (dnl (q2 q i c e)) (q2 q i c e)) {w : UniversalPar D E → Option ℝ} (hw : ∀ r, weight w r ≠ 0)
    (θ0 : UniversalPar D E → ℝ) (p : ι × Two C D E → ℝ) :
    costateRhs (universal nl) w θ0 q p = universalCostate dnl (directParameters (universal nl) w θ0 q p) q p ∧
      ∀ θ, costateRhsFixed (universal nl) w θ q p = universalCostate dnl θ q p :=
  costate_of_grad (cost := fun θ => universalCostate dnl θ q p) (linear_universal nl).affine hw θ0
    (diff_universal fun i c d => (h i c d).differentiableAt) (grad_universal h p)

/-- C34, Periodic. -/
theorem C34_periodic_costate [Nonempty ι] {nl dnl : ℝ → ℝ} {q : ι × Two C D E → ℝ}
    (h : ∀ i c e, HasDerivAt nl (dnl (q2 q i c e)) (q2 q i c e)) {w : PeriodicPar D E → Option ℝ} (hw : ∀ r, weight w r ≠ 0)
    (θ0 : PeriodicPar D E → ℝ) (p : ι × Two C D E → ℝ) :
    costateRhs (periodic nl) w θ0 q p = periodicCostate dnl (directParameters (periodic nl) w θ0 q p) q p ∧
      ∀ θ, costateRhsFixed (periodic nl) w θ q p = periodicCostate dnl θ q p :=
  costate_of_grad (cost := fun θ => periodicCostate dnl θ q p) (linear_periodic nl).affine hw θ0
    (diff_periodic fun i c d => (h i c d).differentiableAt) (grad_periodic h p)

/-- C34, DEBUG Simple. -/
theorem C34_debugSimple_costate [Nonempty ι] {nl dnl : ℝ → ℝ} {q : ι × Two C D D → ℝ}
    (h1 : ∀ i c d, HasDerivAt nl (dnl (q1 q i c d)) (q1 q i c d))
    (h2 : ∀ i c d, HasDerivAt nl (dnl (q2 q i c d)) (q2 q i c d))
    {w : Layer D D ⊕ Layer D D → Option ℝ} (hw : ∀ r, weight w r ≠ 0)
    (θ0 : Layer D D ⊕ Layer D D → ℝ) (p : ι × Two C D D → ℝ) :
    costateRhs (debugSimple nl) w θ0 q p = debugSimpleCostate dnl (directParameters (debugSimple nl) w θ0 q p) q p ∧
      ∀ θ, costateRhsFixed (debugSimple nl) w θ q p = debugSimpleCostate dnl θ q p :=
  costate_of_grad (cost := fun θ => debugSimpleCostate dnl θ q p) (linear_debugSimple nl).affine hw θ0
    (diff_debugSimple (fun i c d => (h1 i c d).differentiableAt) (fun i c d => (h2 i c d).differentiableAt))
    (grad_debugSimple h1 h2 p)

/-- C34, Symmetrized. -/
theorem C34_symmetrized_costate [Nonempty ι] {nl dnl : ℝ → ℝ} {q : ι × Three C D E → ℝ}
    (h2 : ∀ i c e, HasDerivAt nl (dnl (s2 q i c e)) (s2 q i c e))
    (h3 : ∀ i c d, HasDerivAt nl (dnl (s3 q i c d)) (s3 q i c d))
    {w : SymmetrizedPar D E → Option ℝ} (hw : ∀ r, weight w r ≠ 0)
    (θ0 : SymmetrizedPar D E → ℝ) (p : ι × Three C D E → ℝ) :
    costateRhs (symmetrized nl) w θ0 q p = symmetrizedCostate dnl (directParameters (symmetrized nl) w θ0 q p) q p ∧
      ∀ θ, costateRhsFixed (symmetrized nl) w θ q p = symmetrizedCostate dnl θ q p :=
  costate_of_grad (cost := fun θ => symmetrizedCostate dnl θ q p) (linear_symmetrized nl).affine hw θ0
    (diff_symmetrized (fun i c d => (h2 i c d).differentiableAt) (fun i c d => (h3 i c d).differentiableAt))
    (grad_symmetrized h2 h3 p)

/-- C34, GeneralUpDown: with the dampening factor as a parameter the differentiated costate equation has the
additional term `damp * p2`, which the hand-written one lacks. -/
theorem C34_general_costate_dampened [Nonempty ι] {nl dnl : ℝ → ℝ} {q : ι × Two C D E → ℝ}
    (h1 : ∀ i c d, HasDerivAt nl (dnl (q1 q i c d)) (q1 q i c d))
    (h2 : ∀ i c e, HasDerivAt nl (dnl (q2 q i c e)) (q2 q i c e)) (damp : ℝ)
    {w : GeneralPar D E → Option ℝ} (hw : ∀ r, weight w r ≠ 0)
    (θ0 : GeneralPar D E → ℝ) (p : ι × Two C D E → ℝ) :
    costateRhs (general nl damp) w θ0 q p = (fun k => generalCostate dnl (directParameters (general nl damp) w θ0 q p) q p k
        + join 0 (fun i c e => damp * q2 p i c e) k) ∧
      ∀ θ, costateRhsFixed (general nl damp) w θ q p = fun k => generalCostate dnl θ q p k
        + join 0 (fun i c e => damp * q2 p i c e) k :=
  costate_of_grad (cost := fun θ k => generalCostate dnl θ q p k + join 0 (fun i c e => damp * q2 p i c e) k)
    (affine_general nl damp) hw θ0
    (diff_general (fun i c d => (h1 i c d).differentiableAt) (fun i c d => (h2 i c d).differentiableAt) damp)
    (fun θ => grad_general h1 h2 p θ damp)

/-- C34, GeneralUpDown with the dampening factor 0 that the constructor sets. -/
theorem C34_general_costate [Nonempty ι] {nl dnl : ℝ → ℝ} {q : ι × Two C D E → ℝ}
    (h1 : ∀ i c d, HasDerivAt nl (dnl (q1 q i c d)) (q1 q i c d))
    (h2 : ∀ i c e, HasDerivAt nl (dnl (q2 q i c e)) (q2 q i c e))
    {w : GeneralPar D E → Option ℝ} (hw : ∀ r, weight w r ≠ 0)
    (θ0 : GeneralPar D E → ℝ) (p : ι × Two C D E → ℝ) :
    costateRhs (general nl 0) w θ0 q p = generalCostate dnl (directParameters (general nl 0) w θ0 q p) q p ∧
      ∀ θ, costateRhsFixed (general nl 0) w θ q p = generalCostate dnl θ q p := by
  have e : ∀ θ, (fun k => generalCostate dnl θ q p k + join 0 (fun i c e => (0 : ℝ) * q2 p i c e) k) = generalCostate dnl θ q p := by
    intro θ
    funext k
    rcases k with ⟨i, ⟨c, d⟩ | ⟨c, e⟩⟩ <;> simp [join]
  obtain ⟨a, b⟩ := C34_general_costate_dampened h1 h2 0 hw θ0 p
  exact ⟨a.trans (e _), fun θ => (b θ).trans (e θ)⟩

/-- C34, UpdownDampenedQ2: the hand-written costate equation lacks the term `damp * p2`. -/
theorem C34_dampenedQ2_difference [Nonempty ι] {nl dnl : ℝ → ℝ} {q : ι × Two C D E → ℝ}
    (h : ∀ i c e, HasDerivAt nl (dnl (q2 q i c e)) (q2 q i c e)) (damp : ℝ)
    {w : UpDownPar D E → Option ℝ} (hw : ∀ r, weight w r ≠ 0) (θ0 : UpDownPar D E → ℝ) (p : ι × Two C D E → ℝ) :
    costateRhs (dampenedQ2 nl damp) w θ0 q p = (fun k => upDownCostate dnl (directParameters (dampenedQ2 nl damp) w θ0 q p) q p k
        + join 0 (fun i c e => damp * q2 p i c e) k) ∧
      ∀ θ, costateRhsFixed (dampenedQ2 nl damp) w θ q p = fun k => upDownCostate dnl θ q p k
        + join 0 (fun i c e => damp * q2 p i c e) k :=
  costate_of_grad (cost := fun θ k => upDownCostate dnl θ q p k + join 0 (fun i c e => damp * q2 p i c e) k)
    (affine_dampenedQ2 nl damp) hw θ0 (diff_dampenedQ2 (fun i c d => (h i c d).differentiableAt) damp)
    (fun θ => grad_dampenedQ2 h damp p θ)

/-- C34 fails for UpdownDampenedQ2 (dampening factor -0.5): whenever an entry of `p_q2` is not zero, the hand-written costate
equation differs from the differentiated one. -/
theorem C34_dampenedQ2_false [Nonempty ι] {nl dnl : ℝ → ℝ} {q : ι × Two C D E → ℝ}
    (h : ∀ i c e, HasDerivAt nl (dnl (q2 q i c e)) (q2 q i c e))
    {w : UpDownPar D E → Option ℝ} (hw : ∀ r, weight w r ≠ 0) (θ0 : UpDownPar D E → ℝ) (p : ι × Two C D E → ℝ)
    (hp : q2 p ≠ 0) :
    costateRhs (dampenedQ2 nl (-0.5)) w θ0 q p ≠
      upDownCostate dnl (directParameters (dampenedQ2 nl (-0.5)) w θ0 q p) q p := by
  intro hc
  rw [(C34_dampenedQ2_difference h (-0.5) hw θ0 p).1] at hc
  apply hp
  funext i c e
  have := congrFun hc (i, .inr (c, e))
  simp only [add_eq_left] at this
  have h2 : (-0.5 : ℝ) * q2 p i c e = 0 := this
  have h3 : q2 p i c e = 0 := by linarith
  exact h3

example : costateRhs (dampenedQ2 Real.tanh (-0.5) : Rhs (Bool × Two Unit Bool (Fin 3)) _) (fun _ => none) 0 0 (fun _ => 1) ≠
    upDownCostate dtanh (directParameters (dampenedQ2 Real.tanh (-0.5) : Rhs (Bool × Two Unit Bool (Fin 3)) _) (fun _ => none) 0 0
      (fun _ => 1)) 0 (fun _ => 1) :=
  C34_dampenedQ2_false (fun _ _ _ => hasDerivAt_tanh _) (fun _ => by norm_num [weight]) _ _
    (fun h => one_ne_zero (congrFun (congrFun (congrFun h true) ()) 0))

/-! ## C34: the parameters, particle dimension 1 -/

/-- C34, Simple, particle dimension 1: parameters and costate equation. -/
theorem C34_simple [Nonempty ι] [Unique C] {nl dnl : ℝ → ℝ} {q : ι × (C × D) → ℝ}
    (h : ∀ i c d, HasDerivAt nl (dnl (one q i c d)) (one q i c d)) {w : Layer D D → Option ℝ} (hw : ∀ r, weight w r ≠ 0)
    (θ0 : Layer D D → ℝ) (p : ι × (C × D) → ℝ) :
    directParameters (simple nl) w θ0 q p = divideByWeight w (simpleParams nl q p) ∧
      costateRhs (simple nl) w θ0 q p = simpleCostate dnl (divideByWeight w (simpleParams nl q p)) q p := by
  have e : directParameters (simple nl) w θ0 q p = divideByWeight w (simpleParams nl q p) := by
    rw [params_simple]
    exact direct_of_pairing_linear (pairing_simple nl q p) w θ0
  exact ⟨e, e ▸ (C34_simple_costate h hw θ0 p).1⟩

example (q p : Bool × (Unit × Fin 2) → ℝ) :
    costateRhs (simple Real.tanh) (fun _ => some 3) 0 q p =
      simpleCostate dtanh (divideByWeight (fun _ => some 3) (simpleParams Real.tanh q p)) q p :=
  (C34_simple (fun _ _ _ => hasDerivAt_tanh _) (fun _ => by norm_num [weight]) 0 p).2

/-- C34, UpDown, particle dimension 1. -/
theorem C34_upDown [Nonempty ι] [Unique C] {nl dnl : ℝ → ℝ} {q : ι × Two C D E → ℝ}
    (h : ∀ i c e, HasDerivAt nl (dnl (q2 q i c e)) (q2 q i c e)) {w : UpDownPar D E → Option ℝ} (hw : ∀ r, weight w r ≠ 0)
    (θ0 : UpDownPar D E → ℝ) (p : ι × Two C D E → ℝ) :
    directParameters (upDown nl) w θ0 q p = divideByWeight w (upDownParams nl q p) ∧
      costateRhs (upDown nl) w θ0 q p = upDownCostate dnl (divideByWeight w (upDownParams nl q p)) q p := by
  have e : directParameters (upDown nl) w θ0 q p = divideByWeight w (upDownParams nl q p) := by
    rw [params_upDown]
    exact direct_of_pairing_linear (pairing_upDown nl q p) w θ0
  exact ⟨e, e ▸ (C34_upDown_costate h hw θ0 p).1⟩

/-- With relu the entries of `q2` must not be exactly zero. -/
example (p : Bool × Two Unit Bool (Fin 3) → ℝ) :
    costateRhs (upDown relu) (fun _ => none) 0 (fun _ => -2) p =
      upDownCostate drelu (divideByWeight (fun _ => none) (upDownParams relu (fun _ => -2) p)) (fun _ => -2) p :=
  (C34_upDown (fun _ _ _ => hasDerivAt_relu (by norm_num [q2])) (fun _ => by norm_num [weight]) 0 p).2

/-- C34, UpDownUniversal, particle dimension 1. -/
theorem C34_universal [Nonempty ι] [Unique C] {nl dnl : ℝ → ℝ} {q : ι × Two C D E → ℝ}
    (h : ∀ i c e, HasDerivAt nl (dnl (q2 q i c e)) (q2 q i c e)) {w : UniversalPar D E → Option ℝ} (hw : ∀ r, weight w r ≠ 0)
    (θ0 : UniversalPar D E → ℝ) (p : ι × Two C D E → ℝ) :
    directParameters (universal nl) w θ0 q p = divideByWeight w (universalParams nl q p) ∧
      costateRhs (universal nl) w θ0 q p = universalCostate dnl (divideByWeight w (universalParams nl q p)) q p := by
  have e : directParameters (universal nl) w θ0 q p = divideByWeight w (universalParams nl q p) := by
    rw [params_universal]
    exact direct_of_pairing_linear (pairing_universal nl q p) w θ0
  exact ⟨e, e ▸ (C34_universal_costate h hw θ0 p).1⟩

example (q p : Bool × Two Unit Bool (Fin 3) → ℝ) :
    directParameters (universal (softmax 2)) (fun _ => some 0.1) 0 q p =
      divideByWeight (fun _ => some 0.1) (universalParams (softmax 2) q p) :=
  (C34_universal (fun _ _ _ => C30_softmax 2 _) (fun _ => by norm_num [weight]) 0 p).1

/-- C34, Periodic, particle dimension 1. -/
theorem C34_periodic [Nonempty ι] [Unique C] {nl dnl : ℝ → ℝ} {q : ι × Two C D E → ℝ}
    (h : ∀ i c e, HasDerivAt nl (dnl (q2 q i c e)) (q2 q i c e)) {w : PeriodicPar D E → Option ℝ} (hw : ∀ r, weight w r ≠ 0)
    (θ0 : PeriodicPar D E → ℝ) (p : ι × Two C D E → ℝ) :
    directParameters (periodic nl) w θ0 q p = divideByWeight w (periodicParams nl q p) ∧
      costateRhs (periodic nl) w θ0 q p = periodicCostate dnl (divideByWeight w (periodicParams nl q p)) q p := by
  have e : directParameters (periodic nl) w θ0 q p = divideByWeight w (periodicParams nl q p) := by
    rw [params_periodic]
    exact direct_of_pairing_linear (pairing_periodic nl q p) w θ0
  exact ⟨e, e ▸ (C34_periodic_costate h hw θ0 p).1⟩

example (q p : Bool × Two Unit Bool (Fin 3) → ℝ) :
    directParameters (periodic Real.tanh) (fun _ => none) 0 q p =
      divideByWeight (fun _ => none) (periodicParams Real.tanh q p) :=
  (C34_periodic (fun _ _ _ => hasDerivAt_tanh _) (fun _ => by norm_num [weight]) 0 p).1

/-- C34, GeneralUpDown, particle dimension 1, dampening factor 0. -/
theorem C34_general [Nonempty ι] [Unique C] {nl dnl : ℝ → ℝ} {q : ι × Two C D E → ℝ}
    (h1 : ∀ i c d, HasDerivAt nl (dnl (q1 q i c d)) (q1 q i c d))
    (h2 : ∀ i c e, HasDerivAt nl (dnl (q2 q i c e)) (q2 q i c e)) {w : GeneralPar D E → Option ℝ} (hw : ∀ r, weight w r ≠ 0)
    (θ0 : GeneralPar D E → ℝ) (p : ι × Two C D E → ℝ) :
    directParameters (general nl 0) w θ0 q p = divideByWeight w (generalParams nl q p) ∧
      costateRhs (general nl 0) w θ0 q p = generalCostate dnl (divideByWeight w (generalParams nl q p)) q p := by
  have e : directParameters (general nl 0) w θ0 q p = divideByWeight w (generalParams nl q p) := by
    rw [params_general]
    exact direct_of_pairing (pairing_general nl 0 q p) w θ0
  exact ⟨e, e ▸ (C34_general_costate h1 h2 hw θ0 p).1⟩

example (q p : Bool × Two Unit Bool (Fin 3) → ℝ) :
    directParameters (general Real.tanh 0) (fun _ => none) 0 q p =
      divideByWeight (fun _ => none) (generalParams Real.tanh q p) :=
  (C34_general (fun _ _ _ => hasDerivAt_tanh _) (fun _ _ _ => hasDerivAt_tanh _) (fun _ => by norm_num [weight]) 0 p).1

/-- C34, DEBUG Simple, particle dimension 1. -/
theorem C34_debugSimple [Nonempty ι] [Unique C] {nl dnl : ℝ → ℝ} {q : ι × Two C D D → ℝ}
    (h1 : ∀ i c d, HasDerivAt nl (dnl (q1 q i c d)) (q1 q i c d))
    (h2 : ∀ i c d, HasDerivAt nl (dnl (q2 q i c d)) (q2 q i c d))
    {w : Layer D D ⊕ Layer D D → Option ℝ} (hw : ∀ r, weight w r ≠ 0)
    (θ0 : Layer D D ⊕ Layer D D → ℝ) (p : ι × Two C D D → ℝ) :
    directParameters (debugSimple nl) w θ0 q p = divideByWeight w (debugSimpleParams nl q p) ∧
      costateRhs (debugSimple nl) w θ0 q p = debugSimpleCostate dnl (divideByWeight w (debugSimpleParams nl q p)) q p := by
  have e : directParameters (debugSimple nl) w θ0 q p = divideByWeight w (debugSimpleParams nl q p) := by
    rw [params_debugSimple]
    exact direct_of_pairing_linear (pairing_debugSimple nl q p) w θ0
  exact ⟨e, e ▸ (C34_debugSimple_costate h1 h2 hw θ0 p).1⟩

example (q p : Bool × Two Unit (Fin 2) (Fin 2) → ℝ) :
    directParameters (debugSimple Real.tanh) (fun _ => none) 0 q p =
      divideByWeight (fun _ => none) (debugSimpleParams Real.tanh q p) :=
  (C34_debugSimple (fun _ _ _ => hasDerivAt_tanh _) (fun _ _ _ => hasDerivAt_tanh _) (fun _ => by norm_num [weight]) 0 p).1

/-- C34, UpdownDampenedQ2: the hand-written parameters are right. -/
theorem C34_dampenedQ2_parameters [Unique C] (nl : ℝ → ℝ) (damp : ℝ) (q p : ι × Two C D E → ℝ) (w : UpDownPar D E → Option ℝ)
    (θ0 : UpDownPar D E → ℝ) :
    directParameters (dampenedQ2 nl damp) w θ0 q p = divideByWeight w (upDownParams nl q p) := by
  rw [params_upDown]
  exact direct_of_pairing (pairing_dampenedQ2 nl damp q p) w θ0

/-- C34, Symmetrized (with the sizes that fit), particle dimension 1: right when the weight matrices of the first and the third
layer have the same weight. -/
theorem C34_symmetrized_partial [Nonempty ι] [Unique C] {nl dnl : ℝ → ℝ} {q : ι × Three C D E → ℝ}
    (h2 : ∀ i c e, HasDerivAt nl (dnl (s2 q i c e)) (s2 q i c e))
    (h3 : ∀ i c d, HasDerivAt nl (dnl (s3 q i c d)) (s3 q i c d))
    {w1 b1 w2 b2 w3 b3 : Option ℝ} (h13 : w1 = w3)
    (hw : ∀ r : SymmetrizedPar D E, weight (symmetrizedWeights w1 b1 w2 b2 w3 b3) r ≠ 0)
    (θ0 : SymmetrizedPar D E → ℝ) (p : ι × Three C D E → ℝ) :
    let par := divideByWeight (symmetrizedDivisors w1 b1 w2 b2 w3 b3) (symmetrizedParams nl q p)
    directParameters (symmetrized nl) (symmetrizedWeights w1 b1 w2 b2 w3 b3) θ0 q p = par ∧
      costateRhs (symmetrized nl) (symmetrizedWeights w1 b1 w2 b2 w3 b3) θ0 q p = symmetrizedCostate dnl par q p := by
  intro par
  have e : directParameters (symmetrized nl) (symmetrizedWeights w1 b1 w2 b2 w3 b3) θ0 q p = par := by
    have : (symmetrizedDivisors w1 b1 w2 b2 w3 b3 : SymmetrizedPar D E → Option ℝ) = symmetrizedWeights w1 b1 w2 b2 w3 b3 := by
      funext r
      rcases r with ⟨o, _ | j⟩ | ⟨o, _ | j⟩ | ⟨o, _ | j⟩ <;> simp [symmetrizedDivisors, symmetrizedWeights, h13]
    simp only [par, this]
    rw [params_symmetrized]
    exact direct_of_pairing_linear (pairing_symmetrized nl q p) _ θ0
  exact ⟨e, e ▸ (C34_symmetrized_costate h2 h3 hw θ0 p).1⟩

example (q p : Bool × Three Unit Bool (Fin 3) → ℝ) :
    directParameters (symmetrized Real.tanh) (symmetrizedWeights (some 2) none none none (some 2) none) 0 q p =
      divideByWeight (symmetrizedDivisors (some 2) none none none (some 2) none) (symmetrizedParams Real.tanh q p) :=
  (C34_symmetrized_partial (fun _ _ _ => hasDerivAt_tanh _) (fun _ _ _ => hasDerivAt_tanh _) rfl
    (fun r => by rcases r with ⟨o, _ | j⟩ | ⟨o, _ | j⟩ | ⟨o, _ | j⟩ <;> norm_num [weight, symmetrizedWeights]) 0 p).1

/-- C34: with different weights for `l1` and `l3` the hand-written parameters of Symmetrized are wrong. -/
theorem C34_symmetrized_weights_false : ∃ (q p : Unit × Three Unit Unit Unit → ℝ) (w1 w3 : Option ℝ),
    directParameters (symmetrized identity) (symmetrizedWeights w1 none none none w3 none) 0 q p ≠
      divideByWeight (symmetrizedDivisors w1 none none none w3 none) (symmetrizedParams identity q p) := by
  refine ⟨fun _ => 1, fun _ => 1, some 2, some 1, fun hc => ?_⟩
  have h := direct_of_pairing_linear (pairing_symmetrized identity (fun _ => 1) (fun _ => 1))
    (symmetrizedWeights (some 2) none none none (some 1) none : SymmetrizedPar Unit Unit → Option ℝ) 0 (ι := Unit) (K := Three Unit Unit Unit)
  rw [h, ← params_symmetrized] at hc
  have := congrFun hc (.inr (.inr ((), some ())))
  rw [params_symmetrized] at this
  norm_num [divideByWeight, symmetrizedWeights, symmetrizedDivisors, gradSymmetrized, gradLayer, s3, s1] at this

/-! ## C34: particle dimension above 1 -/

/-- The differentiated bias is the sum over the rows of the hand-written bias tensor (of shape `[rows, features]`). -/
theorem C34_bias_rows (nl : ℝ → ℝ) (q p : ι × Two C D E → ℝ) (w : UpDownPar D E → Option ℝ) (θ0 : UpDownPar D E → ℝ) (o : D) :
    directParameters (upDown nl) w θ0 q p (.inl (o, none)) = (∑ c, mean0 (q1 p) c o) / weight w (.inl (o, none)) := by
  rw [direct_of_pairing_linear (pairing_upDown nl q p) w θ0, divideByWeight_eq]
  congr 1
  simp only [Sum.elim_inl, gradLayer, mean0]
  rw [Finset.sum_comm, Finset.sum_div]

/-- C34 needs particle dimension 1: with two rows every row of the hand-written bias of UpDown can differ from the differentiated bias. -/
theorem C34_bias_false : ∃ (q p : Unit × Two Bool Unit Unit → ℝ), ∀ c : Bool,
    directParameters (upDown identity) (fun _ => none) 0 q p (.inl ((), none)) ≠ mean0 (q1 p) c () := by
  refine ⟨0, fun _ => 1, fun c => ?_⟩
  rw [C34_bias_rows]
  norm_num [mean0, weight, q1]

/-- C34, as many rows as features: both weight matrices of Simple, entry by entry.  The differentiated one sums over the rows, the hand-written one takes a single product. -/
theorem C34_simple_square (nl : ℝ → ℝ) (q p : ι × (D × D) → ℝ) (w : Layer D D → Option ℝ) (θ0 : Layer D D → ℝ) (o j : D) :
    directParameters (simple nl) w θ0 q p (o, some j) = (∑ i, ∑ c, p (i, (c, o)) * nl (q (i, (c, j)))) / Fintype.card ι / weight w (o, some j) ∧
      simpleWeightSquare nl q p o j = (∑ i, p (i, (j, o)) * nl (q (i, (o, j)))) / Fintype.card ι := by
  constructor
  · rw [direct_of_pairing_linear (pairing_simple nl q p) w θ0, divideByWeight_eq]
    rfl
  · rw [div_eq_inv_mul, ← one_div]
    rfl

/-- C34 needs particle dimension 1: with as many rows as features, line 1243 of Simple runs without error but computes an
elementwise product instead of the outer product. -/
theorem C34_simple_square_false : ∃ (q p : Unit × (Bool × Bool) → ℝ),
    directParameters (simple identity) (fun _ => none) 0 q p (true, some false) ≠ simpleWeightSquare identity q p true false := by
  refine ⟨fun _ => 1, fun _ => 1, ?_⟩
  rw [direct_of_pairing_linear (pairing_simple identity _ _) (fun _ => none) 0, divideByWeight_eq]
  norm_num [gradLayer, simpleWeightSquare, elementwise, t, one, map, identity, weight]

/-! ## C35 for the classes -/

/-- C35, Simple: along every exact trajectory the norm penalty is constant. -/
theorem C35_simple [Nonempty ι] {nl : ℝ → ℝ} (hnl : Differentiable ℝ nl) (w : Layer D D → Option ℝ) (hw : ∀ r, weight w r ≠ 0)
    {θ0 : ℝ → Layer D D → ℝ} {q p : ℝ → ι × (C × D) → ℝ} {a b : ℝ} (tr : Trajectory (simple nl) w θ0 q p a b) {s : ℝ}
    (hs : s ∈ Icc a b) :
    kineticEnergy w (directParameters (simple nl) w (θ0 s) (q s) (p s)) =
      kineticEnergy w (directParameters (simple nl) w (θ0 a) (q a) (p a)) :=
  C35_norm_penalty_constant (linear_simple nl) w hw (fun θ _ k => diff_simple (fun _ _ _ => hnl _) θ k) tr hs

/-- C35, UpDown. -/
theorem C35_upDown [Nonempty ι] {nl : ℝ → ℝ} (hnl : Differentiable ℝ nl) (w : UpDownPar D E → Option ℝ) (hw : ∀ r, weight w r ≠ 0)
    {θ0 : ℝ → UpDownPar D E → ℝ} {q p : ℝ → ι × Two C D E → ℝ} {a b : ℝ} (tr : Trajectory (upDown nl) w θ0 q p a b) {s : ℝ}
    (hs : s ∈ Icc a b) :
    kineticEnergy w (directParameters (upDown nl) w (θ0 s) (q s) (p s)) =
      kineticEnergy w (directParameters (upDown nl) w (θ0 a) (q a) (p a)) :=
  C35_norm_penalty_constant (linear_upDown nl) w hw (fun θ _ k => diff_upDown (fun _ _ _ => hnl _) θ k) tr hs

/-- C35, UpDownUniversal. -/
theorem C35_universal [Nonempty ι] {nl : ℝ → ℝ} (hnl : Differentiable ℝ nl) (w : UniversalPar D E → Option ℝ)
    (hw : ∀ r, weight w r ≠ 0) {θ0 : ℝ → UniversalPar D E → ℝ} {q p : ℝ → ι × Two C D E → ℝ} {a b : ℝ}
    (tr : Trajectory (universal nl) w θ0 q p a b) {s : ℝ} (hs : s ∈ Icc a b) :
    kineticEnergy w (directParameters (universal nl) w (θ0 s) (q s) (p s)) =
      kineticEnergy w (directParameters (universal nl) w (θ0 a) (q a) (p a)) :=
  C35_norm_penalty_constant (linear_universal nl) w hw (fun θ _ k => diff_universal (fun _ _ _ => hnl _) θ k) tr hs

/-- C35, Periodic. -/
theorem C35_periodic [Nonempty ι] {nl : ℝ → ℝ} (hnl : Differentiable ℝ nl) (w : PeriodicPar D E → Option ℝ)
    (hw : ∀ r, weight w r ≠ 0) {θ0 : ℝ → PeriodicPar D E → ℝ} {q p : ℝ → ι × Two C D E → ℝ} {a b : ℝ}
    (tr : Trajectory (periodic nl) w θ0 q p a b) {s : ℝ} (hs : s ∈ Icc a b) :
    kineticEnergy w (directParameters (periodic nl) w (θ0 s) (q s) (p s)) =
      kineticEnergy w (directParameters (periodic nl) w (θ0 a) (q a) (p a)) :=
  C35_norm_penalty_constant (linear_periodic nl) w hw (fun θ _ k => diff_periodic (fun _ _ _ => hnl _) θ k) tr hs

/-- C35, GeneralUpDown with dampening factor 0. -/
theorem C35_general [Nonempty ι] {nl : ℝ → ℝ} (hnl : Differentiable ℝ nl) (w : GeneralPar D E → Option ℝ)
    (hw : ∀ r, weight w r ≠ 0) {θ0 : ℝ → GeneralPar D E → ℝ} {q p : ℝ → ι × Two C D E → ℝ} {a b : ℝ}
    (tr : Trajectory (general nl 0) w θ0 q p a b) {s : ℝ} (hs : s ∈ Icc a b) :
    kineticEnergy w (directParameters (general nl 0) w (θ0 s) (q s) (p s)) =
      kineticEnergy w (directParameters (general nl 0) w (θ0 a) (q a) (p a)) :=
  C35_norm_penalty_constant (linear_general nl) w hw
    (fun θ _ k => diff_general (fun _ _ _ => hnl _) (fun _ _ _ => hnl _) 0 θ k) tr hs

/-- C35, UpdownDampenedQ2: the Lagrangian (not the norm penalty) is constant. -/
theorem C35_dampenedQ2 [Nonempty ι] {nl : ℝ → ℝ} (hnl : Differentiable ℝ nl) (damp : ℝ) (w : UpDownPar D E → Option ℝ)
    (hw : ∀ r, weight w r ≠ 0) {θ0 : ℝ → UpDownPar D E → ℝ} {q p : ℝ → ι × Two C D E → ℝ} {a b : ℝ}
    (tr : Trajectory (dampenedQ2 nl damp) w θ0 q p a b) {s : ℝ} (hs : s ∈ Icc a b) :
    lagrangian (dampenedQ2 nl damp) w (q s) (p s) (directParameters (dampenedQ2 nl damp) w (θ0 s) (q s) (p s)) =
      lagrangian (dampenedQ2 nl damp) w (q a) (p a) (directParameters (dampenedQ2 nl damp) w (θ0 a) (q a) (p a)) :=
  C35_lagrangian_constant (affine_dampenedQ2 nl damp) w hw
    (fun θ _ k => diff_dampenedQ2 (fun _ _ _ => hnl _) damp θ k) tr hs

/-- A non-constant exact trajectory of the UpDown model for the example below: one particle with costate 1 for `q1` and 0 for
`q2`, state `q1 = s`, `q2 = 0`, nonlinearity tanh: only the bias of `l1` is not zero. -/
theorem upDown_trajectory : Trajectory (upDown Real.tanh : Rhs (Unit × Two Unit Unit Unit) _) (fun _ => none) (fun _ _ => 0)
    (fun s => join (fun _ _ _ => s) (fun _ _ _ => 0)) (fun _ => join (fun _ _ _ => 1) (fun _ _ _ => 0)) 0 1 := by
  have hpar : ∀ s : ℝ, directParameters (upDown Real.tanh : Rhs (Unit × Two Unit Unit Unit) _) (fun _ => none) (fun _ => 0)
      (join (fun _ _ _ => s) (fun _ _ _ => 0)) (join (fun _ _ _ => 1) (fun _ _ _ => 0)) =
      Sum.elim (fun r => match r with | (_, none) => 1 | (_, some _) => 0) (fun _ => 0) := by
    intro s
    rw [direct_of_pairing_linear (pairing_upDown Real.tanh _ _) (fun _ => none) (fun _ => 0)]
    funext r
    rcases r with ⟨_, _ | _⟩ | ⟨_, _ | _⟩ <;> simp [divideByWeight, gradLayer, q1, q2, join, map]
  constructor
  · intro s _ k
    rw [hpar]
    rcases k with ⟨_, ⟨_, _⟩ | ⟨_, _⟩⟩
    · refine (hasDerivAt_id' s).hasDerivWithinAt.congr_deriv ?_
      simp [upDown, join, linear]
    · refine (hasDerivAt_const s (0 : ℝ)).hasDerivWithinAt.congr_deriv ?_
      simp [upDown, join, linear]
  · intro s _ k
    rw [(C34_upDown_costate (dnl := dtanh) (fun _ _ _ => hasDerivAt_tanh _) (fun _ => by norm_num [weight]) _ _).1, hpar]
    rcases k with ⟨_, ⟨_, _⟩ | ⟨_, _⟩⟩
    · refine (hasDerivAt_const s (1 : ℝ)).hasDerivWithinAt.congr_deriv ?_
      simp [upDownCostate, join, matmul, weightOf]
    · refine (hasDerivAt_const s (0 : ℝ)).hasDerivWithinAt.congr_deriv ?_
      simp [upDownCostate, join, matmul, weightOf]

example : ∀ s ∈ Icc (0 : ℝ) 1, kineticEnergy (fun _ => none) (directParameters (upDown Real.tanh : Rhs (Unit × Two Unit Unit Unit) _)
      (fun _ => none) (fun _ => 0) (join (fun _ _ _ => s) (fun _ _ _ => 0)) (join (fun _ _ _ => 1) (fun _ _ _ => 0))) =
    kineticEnergy (fun _ => none) (directParameters (upDown Real.tanh : Rhs (Unit × Two Unit Unit Unit) _) (fun _ => none)
      (fun _ => 0) (join (fun _ _ _ => 0) (fun _ _ _ => 0)) (join (fun _ _ _ => 1) (fun _ _ _ => 0))) :=
  fun _ hs => C35_upDown (fun x => (hasDerivAt_tanh x).differentiableAt) (fun _ => none) (fun _ => by norm_num [weight])
    upDown_trajectory hs

end Verif.Models
