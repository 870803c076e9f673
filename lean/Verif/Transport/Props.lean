import Verif.Transport.Lemmas
import Verif.Symmetry.Lemmas
import Verif.Models.Lemmas

/-!
# C64: the optimal transport integrand

The number of particles, all sizes, states, costates, weights, random starts and numbers of iterations are arbitrary.
-/

set_option linter.unusedSectionVars false

namespace Verif.Transport
open Verif.Shooting Verif.Symmetry

variable {ι ι' K P : Type} [Fintype ι] [Fintype ι'] [Fintype K] [Fintype P]

/-! ## What is minimised -/

/-- C64: up to a constant the Lagrangian is `w/2` times the squared distance between the derivatives of the particles and the costates
divided by the number of particles and the weight. -/
theorem C64_square [Nonempty ι] (rhs : Rhs (ι × K) P) {w : ℝ} (hw : w ≠ 0) (q p : ι × K → ℝ) (θ : P → ℝ) :
    lagr rhs w q p θ = w / 2 * dist2 (rhs θ q) (fun m => p m / (Fintype.card ι * w)) - (∑ m, p m ^ 2) / (2 * (Fintype.card ι : ℝ) ^ 2 * w) := by
  have hn : (Fintype.card ι : ℝ) ≠ 0 := by exact_mod_cast Fintype.card_ne_zero
  unfold lagr kinetic dist2
  rw [potentialEnergy_eq]
  rw [Finset.mul_sum, Finset.mul_sum, Finset.sum_div, Finset.sum_div, ← Finset.sum_sub_distrib, ← Finset.sum_sub_distrib]
  refine Finset.sum_congr rfl fun m _ => ?_
  field_simp
  ring

/-- C64: the parameters that minimise the Lagrangian are those for which the derivatives of the particles are closest to the scaled
costates. -/
theorem C64_minimisers_closest [Nonempty ι] (rhs : Rhs (ι × K) P) {w : ℝ} (hw : 0 < w) (q p : ι × K → ℝ) (θ : P → ℝ) :
    Minimiser (lagr rhs w q p) θ ↔ Closest (fun θ => rhs θ q) (fun m => p m / (Fintype.card ι * w)) θ := by
  unfold Minimiser Closest
  refine forall_congr' fun θ' => ?_
  rw [C64_square rhs hw.ne', C64_square rhs hw.ne']
  constructor
  · intro h
    have : w / 2 * dist2 (rhs θ q) (fun m => p m / (Fintype.card ι * w)) ≤ w / 2 * dist2 (rhs θ' q) (fun m => p m / (Fintype.card ι * w)) := by
      linarith
    exact le_of_mul_le_mul_left this (by linarith)
  · intro h
    have := mul_le_mul_of_nonneg_left h (by linarith : (0:ℝ) ≤ w / 2)
    linarith

/-- C64: such parameters exist, and although they are not unique all of them give the same derivatives of the particles. -/
theorem C64_minimisers [Nonempty ι] {rhs : Rhs (ι × K) P} (h : AffineInParams rhs) {w : ℝ} (hw : 0 < w) (q p : ι × K → ℝ) :
    (∃ θ, Minimiser (lagr rhs w q p) θ) ∧
    ∀ θ θ', Minimiser (lagr rhs w q p) θ → Minimiser (lagr rhs w q p) θ' → rhs θ q = rhs θ' q := by
  have hn : (Fintype.card ι : ℝ) ≠ 0 := by exact_mod_cast Fintype.card_ne_zero
  constructor
  · obtain ⟨θ, hθ⟩ := exists_normal (coeff rhs q) fun j => p j / (Fintype.card ι * w) - rhs 0 q j
    refine ⟨θ, (minimiser_iff h hw.le q p θ).2 fun r => ?_⟩
    have h1 := hθ r
    have e : grad rhs w q p θ r = -w * ∑ j, (p j / (Fintype.card ι * w) - rhs 0 q j - ∑ r', coeff rhs q j r' * θ r') * coeff rhs q j r := by
      unfold grad potCoeff
      rw [Finset.mul_sum, Finset.mul_sum, Finset.sum_div, ← Finset.sum_sub_distrib]
      refine Finset.sum_congr rfl fun j _ => ?_
      rw [affine_coeff h θ q j]
      field_simp
      ring
    rw [e, h1, mul_zero]
  · intro θ θ' h1 h2
    have g1 := (minimiser_iff h hw.le q p θ).1 h1
    have e := lagr_add h w q p θ (fun r => θ' r - θ r)
    simp only [add_sub_cancel, g1, zero_mul, Finset.sum_const_zero, add_zero] at e
    have e2 : lagr rhs w q p θ' = lagr rhs w q p θ := le_antisymm (h2 θ) (h1 θ')
    have e3 : ∑ j, apply rhs q (fun r => θ' r - θ r) j ^ 2 = 0 := by
      have : w / 2 * ∑ j, apply rhs q (fun r => θ' r - θ r) j ^ 2 = 0 := by
        have e' : lagr rhs w q p θ' = lagr rhs w q p θ + w / 2 * ∑ j, apply rhs q (fun r => θ' r - θ r) j ^ 2 := e
        linarith
      rcases mul_eq_zero.1 this with h3 | h3
      · linarith
      · exact h3
    funext j
    have e4 := (Finset.sum_eq_zero_iff_of_nonneg fun j _ => sq_nonneg _).1 e3 j (Finset.mem_univ j)
    have e5 := rhs_add h q θ (fun r => θ' r - θ r) j
    simp only [add_sub_cancel] at e5
    rw [e5, pow_eq_zero_iff two_ne_zero |>.1 e4, add_zero]

/-! ## What is computed: a fixed number of gradient steps from a random start -/

/-- C64: parameters that minimise the Lagrangian are not changed by the iteration. -/
theorem C64_fixed {rhs : Rhs (ι × K) P} (h : AffineInParams rhs) {w : ℝ} (hw : 0 ≤ w) (q p : ι × K → ℝ) (θ : P → ℝ)
    (hm : Minimiser (lagr rhs w q p) θ) (n : ℕ) : iterate rhs w q p n θ = θ := by
  have h0 := (minimiser_iff h hw q p θ).1 hm
  induction n with
  | zero => rfl
  | succ n ih =>
    rw [iterate_succ, ih, step_eq h]
    funext r
    rw [h0 r, mul_zero, add_zero]

/-- C64: exact convergence.  Along every direction `z` with `MᵀM z = μ z` (`M` the matrix of coefficients of the parameters) the distance to
a minimiser is multiplied by `1 - w μ / 2` in every iteration. -/
theorem C64_rate {rhs : Rhs (ι × K) P} (h : AffineInParams rhs) {w : ℝ} (hw : 0 ≤ w) (q p : ι × K → ℝ) (θs θ0 z : P → ℝ) (μ : ℝ)
    (hm : Minimiser (lagr rhs w q p) θs) (hz : ∀ r, ∑ j, coeff rhs q j r * ∑ r', coeff rhs q j r' * z r' = μ * z r) (n : ℕ) :
    inner2 (fun r => iterate rhs w q p n θ0 r - θs r) z = (1 - w * μ / 2) ^ n * inner2 (fun r => θ0 r - θs r) z := by
  have h0 := (minimiser_iff h hw q p θs).1 hm
  have key : ∀ θ : P → ℝ, ∑ r, grad rhs w q p θ r * z r = w * μ * inner2 (fun r => θ r - θs r) z := by
    intro θ
    have e1 : ∀ r, grad rhs w q p θ r = w * ∑ j, apply rhs q (fun r => θ r - θs r) j * coeff rhs q j r := by
      intro r
      have e2 := h0 r
      unfold grad at e2 ⊢
      have e3 : ∀ j, rhs θ q j = rhs θs q j + apply rhs q (fun r => θ r - θs r) j := by
        intro j
        have := rhs_add h q θs (fun r => θ r - θs r) j
        simpa only [add_sub_cancel] using this
      simp only [e3, add_mul, Finset.sum_add_distrib]
      linarith
    have e4 : ∑ r, grad rhs w q p θ r * z r = w * ∑ j, apply rhs q (fun r => θ r - θs r) j * apply rhs q z j := by
      rw [sum_apply_mul, Finset.mul_sum]
      exact Finset.sum_congr rfl fun r _ => by rw [e1 r]; ring
    have e5 : ∑ j, apply rhs q (fun r => θ r - θs r) j * apply rhs q z j = ∑ r, μ * z r * (θ r - θs r) := by
      have : ∀ j, apply rhs q (fun r => θ r - θs r) j * apply rhs q z j = apply rhs q z j * apply rhs q (fun r => θ r - θs r) j :=
        fun j => mul_comm _ _
      simp only [this]
      rw [sum_apply_mul]
      refine Finset.sum_congr rfl fun r _ => ?_
      rw [← hz r]
      congr 1
      exact Finset.sum_congr rfl fun j _ => mul_comm _ _
    rw [e4, e5]
    unfold inner2
    rw [Finset.mul_sum, Finset.mul_sum]
    exact Finset.sum_congr rfl fun r _ => by ring
  induction n with
  | zero => simp [iterate]
  | succ n ih =>
    rw [iterate_succ, step_eq h]
    have e : inner2 (fun r => iterate rhs w q p n θ0 r + (-0.5) * grad rhs w q p (iterate rhs w q p n θ0) r - θs r) z =
        inner2 (fun r => iterate rhs w q p n θ0 r - θs r) z - 0.5 * ∑ r, grad rhs w q p (iterate rhs w q p n θ0) r * z r := by
      unfold inner2
      rw [Finset.mul_sum, ← Finset.sum_sub_distrib]
      exact Finset.sum_congr rfl fun r _ => by ring
    rw [e, key, ih, pow_succ]
    ring

/-- C64: directions that do not influence the particles keep their random start value, whatever the number of iterations. -/
theorem C64_start_kept {rhs : Rhs (ι × K) P} (h : AffineInParams rhs) (w : ℝ) (q p : ι × K → ℝ) (θ0 z : P → ℝ)
    (hz : ∀ j, ∑ r, coeff rhs q j r * z r = 0) (n : ℕ) : inner2 (iterate rhs w q p n θ0) z = inner2 θ0 z := by
  have key : ∀ θ : P → ℝ, ∑ r, grad rhs w q p θ r * z r = 0 := by
    intro θ
    have e : ∑ r, grad rhs w q p θ r * z r =
        w * ∑ j, rhs θ q j * apply rhs q z j - (∑ j, p j * apply rhs q z j) / Fintype.card ι := by
      rw [sum_apply_mul, sum_apply_mul, Finset.mul_sum, Finset.sum_div, ← Finset.sum_sub_distrib]
      exact Finset.sum_congr rfl fun r _ => by unfold grad potCoeff; ring
    have h0 : ∀ j, apply rhs q z j = 0 := hz
    rw [e]
    simp [h0]
  induction n with
  | zero => rfl
  | succ n ih =>
    rw [iterate_succ, step_eq h, ← ih]
    have e : inner2 (fun r => iterate rhs w q p n θ0 r + (-0.5) * grad rhs w q p (iterate rhs w q p n θ0) r) z =
        inner2 (iterate rhs w q p n θ0) z - 0.5 * ∑ r, grad rhs w q p (iterate rhs w q p n θ0) r * z r := by
      unfold inner2
      rw [Finset.mul_sum, ← Finset.sum_sub_distrib]
      exact Finset.sum_congr rfl fun r _ => by ring
    rw [e, key]
    ring

/-- C64: descent.  If the weight times the sum of squares of all coefficients is at most 4, no iteration increases the Lagrangian, and what is
gained bounds the gradients met on the way. -/
theorem C64_descent {rhs : Rhs (ι × K) P} (h : AffineInParams rhs) {w : ℝ} (hw : 0 ≤ w) (q p : ι × K → ℝ) (θ0 : P → ℝ)
    (hs : w * ∑ j, ∑ r, coeff rhs q j r ^ 2 ≤ 4) (n : ℕ) :
    lagr rhs w q p (iterate rhs w q p (n + 1) θ0) ≤ lagr rhs w q p (iterate rhs w q p n θ0) ∧
    (1 - w * (∑ j, ∑ r, coeff rhs q j r ^ 2) / 4) / 2 *
        ∑ k ∈ Finset.range n, ∑ r, autograd (lagr rhs w q p) (iterate rhs w q p k θ0) r ^ 2 ≤
      lagr rhs w q p θ0 - lagr rhs w q p (iterate rhs w q p n θ0) := by
  have key : ∀ θ : P → ℝ, (1 - w * (∑ j, ∑ r, coeff rhs q j r ^ 2) / 4) / 2 * ∑ r, autograd (lagr rhs w q p) θ r ^ 2 ≤
      lagr rhs w q p θ - lagr rhs w q p (step rhs w q p θ) := by
    intro θ
    rw [step_eq h, lagr_add h, (hasGrad_lagr h w q p θ).autograd_eq]
    have h1 : ∀ j, apply rhs q (fun r => -0.5 * grad rhs w q p θ r) j ^ 2 ≤
        1 / 4 * ((∑ r, coeff rhs q j r ^ 2) * ∑ r, grad rhs w q p θ r ^ 2) := by
      intro j
      have h2 := Finset.sum_mul_sq_le_sq_mul_sq Finset.univ (coeff rhs q j) (grad rhs w q p θ)
      have e : apply rhs q (fun r => -0.5 * grad rhs w q p θ r) j = -0.5 * ∑ r, coeff rhs q j r * grad rhs w q p θ r := by
        unfold apply
        rw [Finset.mul_sum]
        exact Finset.sum_congr rfl fun _ _ => by ring
      rw [e, mul_pow]
      norm_num
      linarith
    have h3 : ∑ j, apply rhs q (fun r => -0.5 * grad rhs w q p θ r) j ^ 2 ≤
        1 / 4 * ((∑ j, ∑ r, coeff rhs q j r ^ 2) * ∑ r, grad rhs w q p θ r ^ 2) := by
      refine (Finset.sum_le_sum fun j _ => h1 j).trans (le_of_eq ?_)
      rw [← Finset.mul_sum, ← Finset.sum_mul]
    have h4 : ∑ r, grad rhs w q p θ r * (-0.5 * grad rhs w q p θ r) = -0.5 * ∑ r, grad rhs w q p θ r ^ 2 := by
      rw [Finset.mul_sum]
      exact Finset.sum_congr rfl fun _ _ => by ring
    have h5 := mul_le_mul_of_nonneg_left h3 (by linarith : (0:ℝ) ≤ w / 2)
    rw [h4]
    norm_num at h5 ⊢
    nlinarith
  constructor
  · rw [iterate_succ]
    have h1 := key (iterate rhs w q p n θ0)
    have h2 : 0 ≤ (1 - w * (∑ j, ∑ r, coeff rhs q j r ^ 2) / 4) / 2 * ∑ r, autograd (lagr rhs w q p) (iterate rhs w q p n θ0) r ^ 2 :=
      mul_nonneg (by linarith) (Finset.sum_nonneg fun _ _ => sq_nonneg _)
    linarith
  · induction n with
    | zero => simp [iterate]
    | succ n ih =>
      rw [Finset.sum_range_succ, mul_add, iterate_succ]
      have h1 := key (iterate rhs w q p n θ0)
      linarith

/-! ## Copies of particles: unlike C60 -/

/-- C64: having every particle `n` times has the effect of multiplying the weight by `n`. -/
theorem C64_copies [DecidableEq ι] {f : Evolution.Class K P} (hf : Evolution.Rowwise f) {g : ι' → ι} {n : ℕ} (hg : EachTimes g n) (hn : n ≠ 0)
    (w : ℝ) (q p : ι × K → ℝ) (θ : P → ℝ) :
    lagr (f ι') w (Evolution.rows g q) (Evolution.rows g p) θ = lagr (f ι) (n * w) q p θ ∧
    (∀ θ0 k, iterate (f ι') w (Evolution.rows g q) (Evolution.rows g p) k θ0 = iterate (f ι) (n * w) q p k θ0) := by
  have e : ∀ θ, lagr (f ι') w (Evolution.rows g q) (Evolution.rows g p) θ = lagr (f ι) (n * w) q p θ := by
    intro θ
    unfold lagr kinetic
    rw [potential_copies hf hg hn, hf ι' ι g, Fintype.sum_prod_type_right, Fintype.sum_prod_type_right]
    have : ∀ k, ∑ i', Evolution.rows g (f ι θ q) (i', k) ^ 2 = n * ∑ i, f ι θ q (i, k) ^ 2 := fun k =>
      sum_copies hg fun i => f ι θ q (i, k) ^ 2
    simp only [this, ← Finset.mul_sum]
    ring
  refine ⟨e θ, fun θ0 k => ?_⟩
  have hs : step (f ι') w (Evolution.rows g q) (Evolution.rows g p) = step (f ι) (n * w) q p := by
    funext θ r
    unfold step
    rw [funext e]
  unfold iterate
  rw [hs]

/-! ## Weights that are missing, external parameters -/

/-- C64: without a weight (the default) the parameters cannot be computed; with one they can. -/
theorem C64_weight_required (rhs : Rhs (ι × K) P) (w : Option ℝ) (q p : ι × K → ℝ) (θ0 : P → ℝ) :
    (parametersPy rhs w q p θ0 = .error .typeError ↔ w = none) ∧
    ∀ x, w = some x → parametersPy rhs w q p θ0 = .ok (parameters rhs x q p θ0) := by
  cases w with
  | none => exact ⟨⟨fun _ => rfl, fun _ => rfl⟩, fun x h => by cases h⟩
  | some w =>
    refine ⟨⟨fun h => ?_, fun h => by cases h⟩, fun x h => ?_⟩
    · cases h
    · cases h; rfl

/-- C64: with external parameters the norm penalty at time 0 always raises. -/
theorem C64_external_raises (rhs : Rhs (ι × K) P) (w : Option ℝ) (q : ι × K → ℝ) (e : (P → ℝ) × List (P → ℝ)) (θ : P → ℝ) :
    penalty rhs w q (some e) θ = .error .typeError := rfl

/-- C64: without external parameters the norm penalty is half the weight times the sum of the squared derivatives of the particles; without a weight it raises. -/
theorem C64_penalty (rhs : Rhs (ι × K) P) (w : Option ℝ) (q : ι × K → ℝ) (θ : P → ℝ) :
    (penalty rhs w q none θ = .error .typeError ↔ w = none) ∧
    ∀ x, w = some x → penalty rhs w q none θ = .ok (x / 2 * ∑ m, rhs θ q m ^ 2) := by
  cases w with
  | none => exact ⟨⟨fun _ => rfl, fun _ => rfl⟩, fun x h => by cases h⟩
  | some w =>
    refine ⟨⟨fun h => ?_, fun h => by cases h⟩, fun x h => ?_⟩
    · cases h
    · cases h
      have e : (0.5 : ℝ) * w = w / 2 := by norm_num; ring
      simp [penalty, kineticPy, kinetic, e]

/-! ## Witnesses -/

section Witness
open Verif.Models

/-- Growth `θ * q` of one particle in one dimension with one parameter. -/
def growth : Rhs (Unit × Unit) Unit := fun θ q m => θ () * q m

theorem growth_affine : AffineInParams growth := fun q j => ⟨0, fun _ => q j, fun θ => by simp [growth, mul_comm]⟩

theorem coeff_growth (q : Unit × Unit → ℝ) (j : Unit × Unit) (r : Unit) : coeff growth q j r = q j := by
  simp [coeff, growth]

/-- The iteration can diverge: with weight 6, state 1 and costate 0 the minimiser is 0 and every iteration doubles the distance to it; after
the ten iterations of the code the start value is multiplied by 1024. -/
theorem C64_diverges (a : ℝ) : Minimiser (lagr growth 6 (fun _ => 1) (fun _ => 0)) (fun _ => 0) ∧
    parameters growth 6 (fun _ => 1) (fun _ => 0) (fun _ => a) () = 1024 * a := by
  have h0 : Minimiser (lagr growth 6 (fun _ => 1) (fun _ => 0)) (fun _ => 0) := by
    rw [minimiser_iff growth_affine (by norm_num)]
    intro r
    simp [grad, potCoeff, growth]
  refine ⟨h0, ?_⟩
  have := C64_rate growth_affine (by norm_num : (0:ℝ) ≤ 6) (fun _ => 1) (fun _ => 0) (fun _ => 0) (fun _ => a) (fun _ => 1) 1 h0
    (fun r => by simp [coeff_growth]) 10
  simp only [inner2, Finset.univ_unique, Finset.sum_singleton, sub_zero, mul_one] at this
  unfold parameters
  refine Eq.trans this ?_
  norm_num

/-- The random start is never forgotten: one particle of the class of the repository at the origin, costate zero.  Then the particle is at
rest, the kinetic energy is 0 and the iteration does not move, but the derivative of the data is whatever the random start gives. -/
theorem C64_random_data (c x : ℝ) : ∃ θ0 : UpDownPar Unit Unit → ℝ,
    (∀ w, 0 ≤ w → parameters (secondOrder (ι := Unit) (C := Unit) (D := Unit) Real.tanh) w 0 0 θ0 = θ0 ∧
      kinetic (secondOrder (ι := Unit) (C := Unit) (D := Unit) Real.tanh) w 0 θ0 = 0) ∧
    secondOrder (ι := Unit) (C := Unit) (D := Unit) Real.tanh θ0 (fun _ => x) ((), .inr ((), ())) = c * x := by
  refine ⟨fun r => match r with | .inr (_, some _) => c | _ => 0, fun w hw => ?_, ?_⟩
  · have hv : secondOrder (ι := Unit) (C := Unit) (D := Unit) Real.tanh
        (fun r => match r with | .inr (_, some _) => c | _ => 0) 0 = 0 := by
      funext m
      obtain ⟨i, ⟨_, _⟩ | ⟨_, _⟩⟩ := m <;> simp [secondOrder, upDown, join, linear, q1, q2, Models.map]
    have haff : AffineInParams (secondOrder (ι := Unit) (C := Unit) (D := Unit) Real.tanh) := (linear_upDown Real.tanh).affine
    refine ⟨C64_fixed haff hw 0 0 _ ((minimiser_iff haff hw 0 0 _).2 fun r => ?_) 10, ?_⟩
    · unfold grad
      rw [hv]
      simp [potCoeff]
    · unfold kinetic
      rw [hv]
      simp
  · simp [secondOrder, upDown, join, linear, q1, mul_comm]

/-- The hypotheses of the general theorems hold for the class of the repository, for every number of particles and all sizes. -/
example (w : ℝ) (hw : 0 < w) (q p : Fin 3 × Two Unit (Fin 2) (Fin 2) → ℝ) :
    ∃ θ, Minimiser (lagr (secondOrder Real.tanh) w q p) θ :=
  (C64_minimisers (linear_upDown Real.tanh).affine hw q p).1

/-- The condition of `C64_descent` can be met. -/
example : (2 : ℝ) * ∑ j, ∑ r, coeff growth (fun _ => 1) j r ^ 2 ≤ 4 := by
  simp [coeff_growth]
  norm_num

end Witness

end Verif.Transport
