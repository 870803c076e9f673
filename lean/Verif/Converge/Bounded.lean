import Verif.Converge.Exist
import Verif.Converge.Smooth
import Verif.Evolution.Props

/-!
# Solutions of the shooting equations stay bounded

The kinetic energy of the parameters is constant along a solution; so the parameters stay bounded, then the states and data, which grow at most exponentially, then the costates.
-/

namespace Verif.Converge
open Set Verif Verif.Shooting Verif.Evolution Verif.Models

/-! ## Linear growth -/

/-- At most linear growth. -/
def LinGrowth {J : Type} [Fintype J] (F : (J → ℝ) → ℝ) : Prop := ∃ C, 0 ≤ C ∧ ∀ q, |F q| ≤ C * ‖q‖ + C

section
variable {J : Type} [Fintype J]

theorem LinGrowth.add {F G : (J → ℝ) → ℝ} (hF : LinGrowth F) (hG : LinGrowth G) : LinGrowth fun q => F q + G q := by
  obtain ⟨C, h0, h⟩ := hF
  obtain ⟨C', h0', h'⟩ := hG
  exact ⟨C + C', by positivity, fun q => (abs_add_le _ _).trans (by linarith [h q, h' q])⟩

theorem LinGrowth.mul_const {F : (J → ℝ) → ℝ} (hF : LinGrowth F) (c : ℝ) : LinGrowth fun q => F q * c := by
  obtain ⟨C, h0, h⟩ := hF
  refine ⟨C * |c|, by positivity, fun q => ?_⟩
  rw [abs_mul]
  exact (mul_le_mul_of_nonneg_right (h q) (abs_nonneg c)).trans (le_of_eq (by ring))

theorem linGrowth_const (c : ℝ) : LinGrowth fun _ : J → ℝ => c := ⟨|c|, abs_nonneg c, fun q => by have := mul_nonneg (abs_nonneg c) (norm_nonneg q); linarith⟩

theorem LinGrowth.sub {F G : (J → ℝ) → ℝ} (hF : LinGrowth F) (hG : LinGrowth G) : LinGrowth fun q => F q - G q := by
  have := hF.add (hG.mul_const (-1))
  simpa [sub_eq_add_neg] using this

theorem LinGrowth.sum {A : Type} (s : Finset A) {F : A → (J → ℝ) → ℝ} (h : ∀ i ∈ s, LinGrowth (F i)) : LinGrowth fun q => ∑ i ∈ s, F i q := by
  classical
  induction s using Finset.induction_on with
  | empty => simpa using linGrowth_const 0
  | insert i s hi ih =>
    simp only [Finset.sum_insert hi]
    exact (h i (by simp)).add (ih fun j hj => h j (by simp [hj]))

theorem linGrowth_coord (k : J) : LinGrowth fun q : J → ℝ => q k := ⟨1, zero_le_one, fun q => by
  have := norm_le_pi_norm q k
  rw [Real.norm_eq_abs] at this
  linarith⟩

/-- Nonlinearities of at most linear growth. -/
def Tame (nl : ℝ → ℝ) : Prop := ∃ C, 0 ≤ C ∧ ∀ x, |nl x| ≤ C * |x| + C

theorem linGrowth_nl {nl : ℝ → ℝ} (hn : Tame nl) (k : J) : LinGrowth fun q : J → ℝ => nl (q k) := by
  obtain ⟨C, h0, h⟩ := hn
  refine ⟨C, h0, fun q => (h _).trans ?_⟩
  have := mul_le_mul_of_nonneg_left (norm_le_pi_norm q k) h0
  rw [Real.norm_eq_abs] at this
  linarith

end

variable {ι β K K' P : Type} [Fintype ι] [Fintype β] [Fintype K] [Fintype K'] [Fintype P]

/-- For given parameters the components grow at most linearly. -/
def Growth {J : Type} [Fintype J] (f : Rhs J P) : Prop := ∀ θ j, LinGrowth fun q => f θ q j

/-- Uniformly for bounded parameters. -/
theorem Growth.uniform {f : Rhs (ι × K) P} (ha : AffineInParams f) (hg : Growth f) (A : ℝ) : ∃ C, 0 ≤ C ∧ ∀ θ, (∀ r, |θ r| ≤ A) → ∀ q, ‖f θ q‖ ≤ C * ‖q‖ + C := by
  have hc : ∀ j r, LinGrowth fun q => Shooting.coeff f q j r := fun j r => (hg _ j).sub (hg 0 j)
  choose C0 h00 h0 using hg 0
  choose C1 h01 h1 using hc
  refine ⟨∑ j, (C0 j + ∑ r, C1 j r * |A|), Finset.sum_nonneg fun j _ => add_nonneg (h00 j) (Finset.sum_nonneg fun r _ => mul_nonneg (h01 j r) (abs_nonneg A)), fun θ hθ q => ?_⟩
  have hnn : ∀ j, 0 ≤ C0 j + ∑ r, C1 j r * |A| := fun j => add_nonneg (h00 j) (Finset.sum_nonneg fun r _ => mul_nonneg (h01 j r) (abs_nonneg A))
  have hq := norm_nonneg q
  refine (pi_norm_le_iff_of_nonneg (by have := Finset.sum_nonneg fun j (_ : j ∈ Finset.univ) => hnn j; positivity)).2 fun j => ?_
  have hle : C0 j + ∑ r, C1 j r * |A| ≤ ∑ j, (C0 j + ∑ r, C1 j r * |A|) := Finset.single_le_sum (fun j _ => hnn j) (Finset.mem_univ j)
  have e : |f θ q j| ≤ (C0 j + ∑ r, C1 j r * |A|) * ‖q‖ + (C0 j + ∑ r, C1 j r * |A|) := by
    rw [affine_coeff ha θ q j]
    have s : |∑ r, Shooting.coeff f q j r * θ r| ≤ ∑ r, (C1 j r * |A|) * (‖q‖ + 1) := by
      refine (Finset.abs_sum_le_sum_abs _ _).trans (Finset.sum_le_sum fun r _ => ?_)
      rw [abs_mul]
      have h2 : |θ r| ≤ |A| := (hθ r).trans (le_abs_self A)
      calc |Shooting.coeff f q j r| * |θ r| ≤ (C1 j r * ‖q‖ + C1 j r) * |A| :=
            mul_le_mul (h1 j r q) h2 (abs_nonneg _) (by have := h01 j r; positivity)
        _ = _ := by ring
    rw [← Finset.sum_mul] at s
    refine (abs_add_le _ _).trans ?_
    have := h0 j q
    nlinarith
  rw [Real.norm_eq_abs]
  nlinarith

/-- The derivative of the costate for given parameters. -/
noncomputable def costGrad (f : Rhs (ι × K) P) (θ : P → ℝ) (q p : ι × K → ℝ) : ι × K → ℝ := fun k =>
  - ∑ j, p j * (autograd (fun q' => f 0 q' j) q k + ∑ r, autograd (fun q' => Shooting.coeff f q' j r) q k * θ r)

theorem costGrad_bound {f : Rhs (ι × K) P} (hs : SmoothRhs (1 + 1) f) (A R : ℝ) :
    ∃ C, 0 ≤ C ∧ ∀ θ, (∀ r, |θ r| ≤ A) → ∀ q, ‖q‖ ≤ R → ∀ p, ‖costGrad f θ q p‖ ≤ C * ‖p‖ := by
  have b0 : ∀ j k, ∃ C, ∀ q, ‖q‖ ≤ R → |autograd (fun q' => f 0 q' j) q k| ≤ C := fun j k => by
    obtain ⟨C, hC⟩ := (isCompact_closedBall (0 : ι × K → ℝ) R).exists_bound_of_continuousOn (contDiff_autograd (n := 1) (hs 0 j) k).continuous.continuousOn
    exact ⟨C, fun q hq => hC q (by simpa using hq)⟩
  have b1 : ∀ j r k, ∃ C, ∀ q, ‖q‖ ≤ R → |autograd (fun q' => Shooting.coeff f q' j r) q k| ≤ C := fun j r k => by
    obtain ⟨C, hC⟩ := (isCompact_closedBall (0 : ι × K → ℝ) R).exists_bound_of_continuousOn (contDiff_autograd (n := 1) (hs.coeff j r) k).continuous.continuousOn
    exact ⟨C, fun q hq => hC q (by simpa using hq)⟩
  choose C0 h0 using b0
  choose C1 h1 using b1
  have hnn : ∀ k, 0 ≤ ∑ j, (|C0 j k| + ∑ r, |C1 j r k| * |A|) := fun k => by positivity
  refine ⟨∑ k, ∑ j, (|C0 j k| + ∑ r, |C1 j r k| * |A|), Finset.sum_nonneg fun k _ => hnn k, fun θ hθ q hq p => ?_⟩
  have hp := norm_nonneg p
  refine (pi_norm_le_iff_of_nonneg (mul_nonneg (Finset.sum_nonneg fun k _ => hnn k) hp)).2 fun k => ?_
  have hle : ∑ j, (|C0 j k| + ∑ r, |C1 j r k| * |A|) ≤ ∑ k, ∑ j, (|C0 j k| + ∑ r, |C1 j r k| * |A|) := Finset.single_le_sum (fun k _ => hnn k) (Finset.mem_univ k)
  have e : |costGrad f θ q p k| ≤ (∑ j, (|C0 j k| + ∑ r, |C1 j r k| * |A|)) * ‖p‖ := by
    unfold costGrad
    rw [abs_neg, Finset.sum_mul]
    refine (Finset.abs_sum_le_sum_abs _ _).trans (Finset.sum_le_sum fun j _ => ?_)
    rw [abs_mul, mul_comm]
    have hpj : |p j| ≤ ‖p‖ := norm_le_pi_norm p j
    refine mul_le_mul ?_ hpj (abs_nonneg _) (by positivity)
    refine (abs_add_le _ _).trans (add_le_add ((h0 j k q hq).trans (le_abs_self _)) ?_)
    refine (Finset.abs_sum_le_sum_abs _ _).trans (Finset.sum_le_sum fun r _ => ?_)
    rw [abs_mul]
    exact mul_le_mul ((h1 j r k q hq).trans (le_abs_self _)) ((hθ r).trans (le_abs_self A)) (abs_nonneg _) (abs_nonneg _)
  rw [Real.norm_eq_abs]
  exact e.trans (mul_le_mul_of_nonneg_right hle hp)

/-- Bounded parameters: the solution stays bounded. -/
theorem bound_of_params {f : Class K P} (ha : AffineInParams (f ι)) (hs : SmoothRhs (1 + 1) (f ι)) (hg : Growth (f ι)) {g : Class K' P} (hab : AffineInParams (g β)) (hgb : Growth (g β))
    (a b A : ℝ) (z : Sys2 ι β K K') : ∃ R : ℝ, ∀ c ∈ Icc a b, ∀ (y : ℝ → Sys2 ι β K K') (θ : ℝ → P → ℝ), (∀ t ∈ Icc a c, ∀ r, |θ t r| ≤ A) → y a = z →
      (∀ t ∈ Icc a c, HasDerivWithinAt y (f ι (θ t) (y t).1, costGrad (f ι) (θ t) (y t).1 (y t).2.1, g β (θ t) (y t).2.2) (Icc a c) t) → ∀ t ∈ Icc a c, ‖y t‖ ≤ R := by
  obtain ⟨C1, h10, h1⟩ := hg.uniform ha A
  obtain ⟨C3, h30, h3⟩ := hgb.uniform hab A
  obtain ⟨R1, hR1⟩ := bound_of_growth a b z.1 C1
  obtain ⟨R3, hR3⟩ := bound_of_growth a b z.2.2 C3
  obtain ⟨C2, h20, h2⟩ := costGrad_bound hs A R1
  obtain ⟨R2, hR2⟩ := bound_of_growth a b z.2.1 C2
  refine ⟨max R1 (max R2 R3), fun c hc y θ hθ hya hy t ht => ?_⟩
  have b1 := hR1 c hc (fun t => (y t).1) _ (fun t ht => (hasFDerivAt_fst.comp_hasDerivWithinAt t (hy t ht))) (by rw [hya]) fun t ht => h1 (θ t) (hθ t ht) _
  have b3 := hR3 c hc (fun t => (y t).2.2) _ (fun t ht => (hasFDerivAt_snd.comp_hasDerivWithinAt t (hasFDerivAt_snd.comp_hasDerivWithinAt t (hy t ht)))) (by rw [hya])
    fun t ht => h3 (θ t) (hθ t ht) _
  have b2 := hR2 c hc (fun t => (y t).2.1) _ (fun t ht => (hasFDerivAt_fst.comp_hasDerivWithinAt t (hasFDerivAt_snd.comp_hasDerivWithinAt t (hy t ht)))) (by rw [hya])
    fun t ht => (h2 (θ t) (hθ t ht) _ (b1 t ht) _).trans (by linarith)
  have := b1 t ht
  have := b2 t ht
  have := b3 t ht
  simp only [Prod.norm_def]
  exact max_le_max (b1 t ht) (max_le_max (b2 t ht) (b3 t ht))

end Verif.Converge
