import Verif.Optimal.System
import Verif.Converge.Instance

/-!
# C81, C82: concrete cases
-/

namespace Verif.Optimal
open Set MeasureTheory Verif.Shooting Verif.Converge Verif.Evolution Verif.Models

/-! ## The up-down class with `tanh`, from every start -/

section
variable (n : ℕ) (q0 p0 : Fin (n + 1) × Two (Fin 1) (Fin 2) (Fin 6) → ℝ)

theorem tanh_trajectory : ∃ q p, Trajectory (upDown Real.tanh : Rhs (Fin (n + 1) × Two (Fin 1) (Fin 2) (Fin 6)) _) (fun _ => none) (fun _ => 0) q p 0 1 ∧ q 0 = q0 ∧ p 0 = p0 := by
  obtain ⟨y, h1, h2, -⟩ := C69_global (β := Fin 0) (regular_tanh (C := Fin 1) (D := Fin 2) (E := Fin 6)) (fun _ => none) (fun _ => by norm_num [weight]) (fun _ => (0, 0)) zero_le_one (q0, p0, fun _ => 0)
  exact ⟨fun t => (y t).1, fun t => (y t).2.1, Solves.trajectory (f := fun _ => upDown Real.tanh) (g := fun _ => upDown Real.tanh) h1, by show (y 0).1 = q0; rw [h2], by show (y 0).2.1 = p0; rw [h2]⟩

/-- `C81_first_variation`, `C81_critical`, `C81_short_is_best`, `C81_cost_is_penalty` for any number of particles, from every start with every costate: pieces of some length are optimal. -/
example : ∃ (q p : ℝ → Fin (n + 1) × Two (Fin 1) (Fin 2) (Fin 6) → ℝ) (h C : ℝ), q 0 = q0 ∧ p 0 = p0 ∧ 0 < h ∧
    (∀ s c, 0 ≤ s → s < c → c ≤ 1 → c - s ≤ h → ∀ θ' q', Driven (upDown Real.tanh) θ' q' s c → q' s = q s → q' c = q c →
      cost (weight fun _ => none) (fun t => directParameters (upDown Real.tanh) (fun _ => none) 0 (q t) (p t)) s c ≤ cost (weight fun _ => none) θ' s c) ∧
    (∀ ε, 0 ≤ ε → ε ≤ 1 → ∀ θ' q', Driven (upDown Real.tanh) θ' q' 0 1 → q' 0 = q 0 → q' 1 = q 1 → (∀ t ∈ Icc (0 : ℝ) 1, ∀ r, |θ' t r - directParameters (upDown Real.tanh) (fun _ => none) 0 (q t) (p t) r| ≤ ε) →
      |cost (weight fun _ => none) θ' 0 1 - cost (weight fun _ => none) (fun t => directParameters (upDown Real.tanh) (fun _ => none) 0 (q t) (p t)) 0 1| ≤ C * ε ^ 2) ∧
    cost (weight fun _ => none) (fun t => directParameters (upDown Real.tanh) (fun _ => none) 0 (q t) (p t)) 0 1 = (1 - 0) * kineticEnergy (fun _ => none) (directParameters (upDown Real.tanh) (fun _ => none) 0 (q 0) (p 0)) := by
  obtain ⟨q, p, tr, hq, hp⟩ := tanh_trajectory n q0 p0
  have hr := regular_tanh (C := Fin 1) (D := Fin 2) (E := Fin 6)
  obtain ⟨h, hh, h1⟩ := C81_short_is_best (hr.linear _).affine (hr.smooth _) (hr.growth _) (fun _ => none) (fun _ => by norm_num [weight]) tr
  obtain ⟨C, h2⟩ := C81_critical (hr.linear _).affine (hr.smooth _) (hr.growth _) (fun _ => none) (fun _ => by norm_num [weight]) zero_le_one tr
  exact ⟨q, p, h, C, hq, hp, hh, fun s c a1 a2 a3 a4 θ' q' a5 a6 a7 => (h1 s c a1 a2 a3 a4 θ' q' a5 a6 a7).1, h2,
    C81_cost_is_penalty (hr.linear _) (hr.smooth _) (fun _ => none) (fun _ => by norm_num [weight]) zero_le_one tr⟩

/-- `C82_driven`, `C82_driven_unique`: parameters that oscillate. -/
example : ∃ q, Driven (upDown Real.tanh) (fun t _ => Real.sin t) q 0 1 ∧ q 0 = q0 ∧ ∀ q', Driven (upDown Real.tanh) (fun t _ => Real.sin t) q' 0 1 → q' 0 = q0 → ∀ t ∈ Icc (0 : ℝ) 1, q' t = q t := by
  have hr := regular_tanh (C := Fin 1) (D := Fin 2) (E := Fin 6)
  obtain ⟨q, h1, h2⟩ := C82_driven (hr.linear (Fin (n + 1))).affine (hr.smooth _) (hr.growth _) (θ := fun t _ => Real.sin t) zero_le_one (fun _ => Real.continuous_sin.continuousOn) q0
  exact ⟨q, h1, h2, fun q' h3 h4 => C82_driven_unique (hr.linear _).affine (hr.smooth _) (hr.growth _) h1 h3 (h4.trans h2.symm)⟩

end

/-! ## A trajectory with other parameters that lead to the same end -/

theorem growth_smooth : SmoothRhs 2 growth := fun θ j => by
  unfold growth
  fun_prop

theorem growth_growth : Growth growth := fun θ j => by
  have := (linGrowth_coord (J := Bool × Unit) j).mul_const (θ ())
  refine (funext fun q => ?_ : (fun q : Bool × Unit → ℝ => growth θ q j) = fun q => q j * θ ()) ▸ this
  simp [growth, mul_comm]

/-- The parameter `3 + η (1 - 2 t)` instead of `3`: the particles arrive at the same place, by another way. -/
theorem growth_detour (η : ℝ) : Driven growth (fun t _ => 3 + η * (1 - 2 * t)) (fun t _ => Real.exp (3 * t + η * (t - t ^ 2))) 0 1 where
  cont _ := by fun_prop
  state t _ j := by
    have h : HasDerivAt (fun s : ℝ => 3 * s + η * (s - s ^ 2)) (3 + η * (1 - 2 * t)) t := by
      have h1 := ((hasDerivAt_id' t).const_mul 3).add ((((hasDerivAt_id' t).sub (hasDerivAt_pow 2 t))).const_mul η)
      refine h1.congr_deriv ?_
      norm_num
    refine h.exp.hasDerivWithinAt.congr_deriv ?_
    simp [growth, mul_comm]

/-- `C81_first_variation`, `C81_critical`: the detours save at most a multiple of `η ^ 2`. -/
example : ∃ C, ∀ η, 0 ≤ η → η ≤ 1 → |cost (weight fun _ => none) (fun t (_ : Unit) => 3 + η * (1 - 2 * t)) 0 1 -
    cost (weight fun _ => none) (fun t => directParameters growth (fun _ => none) (fun _ => 0) (fun _ => Real.exp (3 * t)) (fun _ => 3 * Real.exp (-(3 * t)))) 0 1| ≤ C * η ^ 2 := by
  obtain ⟨C, h⟩ := C81_critical growth_linear.affine growth_smooth growth_growth (fun _ => none) (fun _ => by norm_num [weight]) zero_le_one growth_trajectory
  refine ⟨C, fun η h0 h1 => h η h0 h1 _ _ (growth_detour η) (by simp) (by simp) fun t ht r => ?_⟩
  have hpar : directParameters growth (fun _ => none) (fun _ => 0) (fun _ => Real.exp (3 * t)) (fun _ => 3 * Real.exp (-(3 * t))) r = 3 := by
    rw [growth_direct, mul_assoc, ← Real.exp_add]
    norm_num
  rw [hpar, add_sub_cancel_left, abs_mul, abs_of_nonneg h0]
  refine mul_le_of_le_one_right h0 (abs_le.2 ⟨by linarith [ht.2], by linarith [ht.1]⟩)

/-! ## An optimum -/

/-- One parameter that moves every particle with the same speed. -/
def shift : Class Unit Unit := fun _ θ _ _ => θ ()

theorem shift_regular : Regular shift where
  linear _ _ _ _ := ⟨fun _ => 1, fun θ => by simp [shift]⟩
  smooth _ _ _ _ := by unfold shift; fun_prop
  growth _ _ θ _ := linGrowth_const (θ ())

/-- Half the squared distance to 1. -/
noncomputable def target : (Unit × Unit → ℝ) → ℝ := fun x => (x ((), ()) - 1) ^ 2 / 2

theorem target_grad (x : Unit × Unit → ℝ) : HasGrad target (fun _ => x ((), ()) - 1) x := by
  have h := (hasGrad_coord ((), ()) x).sub (hasGrad_const 1 x)
  refine ((h.mul h).const_mul (1 / 2)).congr (fun y => ?_) fun j => ?_
  · simp [target]
    ring
  · simp
    ring

/-- The particle starts at 0; the best compromise is to move it to 1/2 with constant speed. -/
theorem shift_best : BestFor (shift Unit) (weight fun _ => none) target (fun _ _ => 1 / 2) (fun t _ => t / 2) 0 1 := by
  refine ⟨⟨fun _ => continuousOn_const, fun t _ j => ?_⟩, fun θ' q' hd he => ?_⟩
  · simpa [shift] using ((hasDerivAt_id' t).div_const 2).hasDerivWithinAt (s := Icc (0 : ℝ) 1)
  · have hI : (0 : ℝ) ∈ Icc (0 : ℝ) 1 := by simp
    have hI' : (1 : ℝ) ∈ Icc (0 : ℝ) 1 := by simp
    have hc := hd.cont ()
    have hend : q' 1 ((), ()) = ∫ t in (0 : ℝ)..1, θ' t () := by
      have h := intervalIntegral.integral_eq_sub_of_hasDeriv_right_of_le zero_le_one (f := fun t => q' t ((), ())) (f' := fun t => θ' t ())
        (fun t ht => (hd.state t ht ((), ())).continuousWithinAt)
        (fun t ht => (right_deriv (Ioo_subset_Ico_self ht) (hd.state t (Ioo_subset_Icc_self ht) ((), ()))).mono Ioi_subset_Ici_self) (integrable_Icc hc hI hI')
      rw [h, he]
      simp
    have hCS := sq_integral_le zero_le_one hc
    rw [← hend] at hCS
    have e1 : cost (weight fun _ : Unit => none) θ' 0 1 = (∫ t in (0 : ℝ)..1, θ' t () ^ 2) / 2 := by
      unfold cost halfWeightedSquares
      rw [← intervalIntegral.integral_div]
      simp [weight]
    have e2 : cost (weight fun _ : Unit => none) (fun _ _ => 1 / 2) 0 1 = 1 / 8 := by
      unfold cost halfWeightedSquares
      simp [weight]
      norm_num
    rw [e1, e2]
    unfold target
    nlinarith [sq_nonneg (q' 1 ((), ()) - 1 / 2)]

/-- `C82_best_is_shooting`: its costate is 1/2 at the end. -/
example : ∃ p, Trajectory (shift Unit) (fun _ => none) (fun _ => 0) (fun t _ => t / 2) p 0 1 ∧
    (∀ t ∈ Icc (0 : ℝ) 1, (fun _ => 1 / 2) = directParameters (shift Unit) (fun _ => none) 0 (fun _ => t / 2) (p t)) ∧ p 1 = fun _ => - ((Fintype.card Unit : ℝ) * (1 / 2 - 1)) :=
  C82_best_is_shooting (shift_regular.linear _).affine (shift_regular.smooth _) (shift_regular.growth _) (fun _ => none) (fun _ => by norm_num [weight]) zero_lt_one shift_best (target_grad _) fun _ => 0

/-- `C82_system`, `C82_one_particle_per_sample`. -/
example (ρ) : ∃ p0, ∀ y : ℝ → Sys Unit Unit Unit, Solves (Evolution.field shift (Evolution.autodiff shift (fun _ => none) ρ)) 0 1 y → y 0 = (fun _ => 0 / 2, p0, fun _ => 0 / 2) →
    ∀ t ∈ Icc (0 : ℝ) 1, (y t).2.2 = fun _ => t / 2 :=
  C82_one_particle_per_sample shift_regular (fun _ => none) (fun _ => by norm_num [weight]) ρ zero_lt_one shift_best (target_grad _)

/-- `C82_shooting_is_critical` for the same trajectory. -/
example : ∃ p : ℝ → Unit × Unit → ℝ, ∀ η, 0 < η → ∃ ε0, 0 < ε0 ∧ ∀ ε, 0 < ε → ε ≤ ε0 → ∀ θ' q', Driven (shift Unit) θ' q' 0 1 → q' 0 = (fun _ => 0 / 2) →
    (∀ t ∈ Icc (0 : ℝ) 1, ∀ r, |θ' t r - directParameters (shift Unit) (fun _ => none) 0 (fun _ => t / 2) (p t) r| ≤ ε) →
      |(cost (weight fun _ => none) θ' 0 1 + target (q' 1)) - (cost (weight fun _ => none) (fun t => directParameters (shift Unit) (fun _ => none) 0 (fun _ => t / 2) (p t)) 0 1 + target fun _ => 1 / 2)| ≤ η * ε := by
  obtain ⟨p, h1, -, h3⟩ := C82_best_is_shooting (shift_regular.linear _).affine (shift_regular.smooth _) (shift_regular.growth _) (fun _ => none) (fun _ => by norm_num [weight]) zero_lt_one shift_best
    (target_grad _) fun _ => 0
  exact ⟨p, C82_shooting_is_critical (shift_regular.linear _).affine (shift_regular.smooth _) (shift_regular.growth _) (fun _ => none) (fun _ => by norm_num [weight]) zero_le_one h1 (target_grad _) h3⟩

end Verif.Optimal
