import Verif.Symmetry.Spec
import Verif.Evolution.Props
import Verif.Conv.Props

set_option linter.unusedSectionVars false

namespace Verif.Symmetry
open Verif.Shooting Verif.Evolution

variable {ι ι' β K P : Type}

/-! ## Gradients and linear maps -/

theorem HasGrad.comp_clm {J J' : Type} [Fintype J] [Fintype J'] {F : (J' → ℝ) → ℝ} {g : J' → ℝ} {x : J → ℝ}
    (L : (J → ℝ) →L[ℝ] (J' → ℝ)) (h : HasGrad F g (L x)) {g' : J → ℝ}
    (hg : ∀ v, ∑ j, g' j * v j = ∑ j, g j * L v j) : HasGrad (fun y => F (L y)) g' x := by
  have h1 := HasFDerivAt.comp x (f := fun y => L y) (g := F) h L.hasFDerivAt
  refine h1.congr_fderiv ?_
  ext v
  rw [grad_apply, hg, ContinuousLinearMap.comp_apply, grad_apply]

/-! ## The right-hand side of one row -/

/-- The derivative of one particle with state `y`. -/
def rowRhs (f : Class K P) (θ : P → ℝ) (y : K → ℝ) : K → ℝ := fun k => f Unit θ (fun m => y m.2) ((), k)

theorem rhs_eq_row {f : Class K P} (hf : Rowwise f) (κ : Type) (θ : P → ℝ) (x : κ × K → ℝ) (i : κ) (k : K) :
    f κ θ x (i, k) = rowRhs f θ (fun l => x (i, l)) k := by
  have := congrFun (hf Unit κ (fun _ => i) θ x) ((), k)
  exact this.symm

section
variable [Fintype K]

/-- Differentiability of the derivative of one row in its state. -/
def DiffRow (f : Class K P) : Prop := ∀ θ y k, DifferentiableAt ℝ (fun y' => rowRhs f θ y' k) y

theorem diffRow_of {f : Class K P} (h : ∀ θ q j, DifferentiableAt ℝ (fun q' => f Unit θ q' j) q) : DiffRow f := by
  intro θ y k
  have hL : Differentiable ℝ (fun y' : K → ℝ => (fun m : Unit × K => y' m.2)) := by fun_prop
  exact (h θ (fun m => y m.2) ((), k)).comp y (hL y)

/-- Reading row `i`. -/
def rowL [Fintype ι] (i : ι) : (ι × K → ℝ) →L[ℝ] (K → ℝ) := ContinuousLinearMap.pi fun k => ContinuousLinearMap.proj (i, k)

theorem rowL_apply [Fintype ι] (i : ι) (x : ι × K → ℝ) : rowL i x = fun k => x (i, k) := rfl

theorem diff_of_row [Fintype ι] {f : Class K P} (hf : Rowwise f) (hd : DiffRow f) (θ : P → ℝ) (q : ι × K → ℝ) (j : ι × K) :
    DifferentiableAt ℝ (fun q' => f ι θ q' j) q := by
  have e : (fun q' => f ι θ q' j) = fun q' => (fun y => rowRhs f θ y j.2) (rowL j.1 q') := by
    funext q'
    rw [rowL_apply]
    exact rhs_eq_row hf ι θ q' j.1 j.2
  rw [e]
  exact (hd θ _ j.2).comp q (rowL j.1).differentiableAt

/-- The vector `∑ l, p l * ∂ rhs_l / ∂ y_k` for one row. -/
noncomputable def rowPull (f : Class K P) (θ : P → ℝ) (y p : K → ℝ) : K → ℝ := fun k =>
  ∑ l, p l * autograd (fun y' => rowRhs f θ y' l) y k

theorem hasGrad_row [Fintype ι] {f : Class K P} (hf : Rowwise f) (hd : DiffRow f) (θ : P → ℝ) (q p : ι × K → ℝ) :
    HasGrad (fun q' => ∑ j, p j * f ι θ q' j)
      (fun m => rowPull f θ (fun k => q (m.1, k)) (fun k => p (m.1, k)) m.2) q := by
  classical
  have h1 : ∀ i : ι, HasGrad (fun q' => ∑ l, p (i, l) * f ι θ q' (i, l))
      (fun m => if m.1 = i then rowPull f θ (fun k => q (i, k)) (fun k => p (i, k)) m.2 else 0) q := by
    intro i
    have h2 : HasGrad (fun y => ∑ l, p (i, l) * rowRhs f θ y l) (rowPull f θ (fun k => q (i, k)) (fun k => p (i, k)))
        (rowL i q) := by
      have := HasGrad.sum (F := fun l y => p (i, l) * rowRhs f θ y l) (x := rowL i q) fun l =>
        (hasGrad_of_differentiableAt (hd θ (rowL i q) l)).const_mul (p (i, l))
      exact this
    have h3 := HasGrad.comp_clm (rowL i) h2
      (g' := fun m => if m.1 = i then rowPull f θ (fun k => q (i, k)) (fun k => p (i, k)) m.2 else 0) (by
        intro v
        rw [Fintype.sum_prod_type]
        simp only [ite_mul, zero_mul, rowL_apply]
        rw [Finset.sum_comm]
        simp)
    refine h3.congr (fun y => ?_) fun _ => rfl
    refine Finset.sum_congr rfl fun l _ => ?_
    rw [rowL_apply, rhs_eq_row hf]
  refine (HasGrad.sum h1).congr (fun y => ?_) fun m => ?_
  · rw [Fintype.sum_prod_type]
  · simp

end

section
variable [Fintype ι] [Fintype K] [Fintype P]

/-- The costate of a particle depends on that particle and the parameters only. -/
theorem costate_row [Nonempty ι] {f : Class K P} (hf : Rowwise f) (hd : DiffRow f) (ha : AffineInParams (f ι)) (w : P → Option ℝ)
    (hw : ∀ r, weight w r ≠ 0) (θ0 : P → ℝ) (q p : ι × K → ℝ) (i : ι) (k : K) :
    costateRhs (f ι) w θ0 q p (i, k) =
      - rowPull f (directParameters (f ι) w θ0 q p) (fun k => q (i, k)) (fun k => p (i, k)) k := by
  rw [(C34_costate_gradient ha w hw θ0 q p (fun θ j => diff_of_row hf hd θ q j) (hasGrad_row hf hd _ q p)).2]

theorem costateFixed_row [Nonempty ι] {f : Class K P} (hf : Rowwise f) (hd : DiffRow f) (w : P → Option ℝ)
    (θ : P → ℝ) (q p : ι × K → ℝ) (i : ι) (k : K) :
    costateRhsFixed (f ι) w θ q p (i, k) = - rowPull f θ (fun k => q (i, k)) (fun k => p (i, k)) k := by
  rw [C34_fixed_parameters (f ι) w θ q p (fun j => diff_of_row hf hd θ q j) (hasGrad_row hf hd θ q p)]

end

/-! ## Copies -/

section
variable [Fintype ι] [Fintype ι'] [DecidableEq ι]

theorem sum_copies {g : ι' → ι} {n : ℕ} (hg : EachTimes g n) (F : ι → ℝ) : ∑ i', F (g i') = n * ∑ i, F i := by
  rw [← Finset.sum_fiberwise_of_maps_to (s := Finset.univ) (t := Finset.univ) (g := g) (fun _ _ => Finset.mem_univ _),
    Finset.mul_sum]
  refine Finset.sum_congr rfl fun i _ => ?_
  rw [Finset.sum_congr rfl (g := fun _ => F i) (fun i' hi' => by rw [(Finset.mem_filter.1 hi').2]), Finset.sum_const, hg i, nsmul_eq_mul]

theorem card_copies {g : ι' → ι} {n : ℕ} (hg : EachTimes g n) : (Fintype.card ι' : ℝ) = n * Fintype.card ι := by
  have := sum_copies hg fun _ => 1
  simpa using this

variable [Fintype K] [Fintype P]

theorem potential_copies {f : Class K P} (hf : Rowwise f) {g : ι' → ι} {n : ℕ} (hg : EachTimes g n) (hn : n ≠ 0) (q p : ι × K → ℝ)
    (θ : P → ℝ) : potentialEnergy (f ι') (rows g q) (rows g p) θ = potentialEnergy (f ι) q p θ := by
  unfold potentialEnergy
  refine Finset.sum_congr rfl fun k _ => ?_
  have e : ∑ i', rows g p (i', k) * f ι' θ (rows g q) (i', k) = n * ∑ i, p (i, k) * f ι θ q (i, k) := by
    rw [hf ι' ι g]
    exact sum_copies hg fun i => p (i, k) * f ι θ q (i, k)
  rw [e, card_copies hg, mul_div_mul_left]
  exact_mod_cast hn

theorem direct_copies {f : Class K P} (hf : Rowwise f) (w : P → Option ℝ) {g : ι' → ι} {n : ℕ} (hg : EachTimes g n) (hn : n ≠ 0)
    (θ0 : P → ℝ) (q p : ι × K → ℝ) :
    directParameters (f ι') w θ0 (rows g q) (rows g p) = directParameters (f ι) w θ0 q p := by
  unfold directParameters
  simp only [potential_copies hf hg hn]

end

/-! ## Linear maps on systems -/

def copyL (g : ι' → ι) : Sys ι β K →ₗ[ℝ] Sys ι' β K where
  toFun := copyParticles g
  map_add' _ _ := rfl
  map_smul' _ _ := rfl

/-- State and costate together with data that are copies of particles. -/
def followL (g : β → ι) : Sys ι Empty K →ₗ[ℝ] Sys ι β K where
  toFun s := (s.1, s.2.1, rows g s.1)
  map_add' _ _ := rfl
  map_smul' _ _ := rfl

/-! ## Differentiability of the classes -/

section
open Verif.Models
variable {C D E : Type} [Fintype C] [Fintype D] [Fintype E]

theorem diff_dampenedUpDown {nl : ℝ → ℝ} (hnl : Differentiable ℝ nl) (θ : UpDownPar D E → ℝ) (q : Unit × Four C D E → ℝ)
    (k : Unit × Four C D E) : DifferentiableAt ℝ (fun q' => dampenedUpDown nl θ q' k) q := by
  rcases k with ⟨i, (⟨c, d⟩ | ⟨c, e⟩) | u⟩
  · exact (differentiableAt_linear (x := fun y => map nl (d2 y)) (fun r => θ (.inl r))
      (fun i c e => differentiableAt_nl (k := ((i, .inl (.inr (c, e))) : Unit × Four C D E)) (hnl _)) i c d).sub
      ((differentiableAt_nl (k := ((i, .inr (.inl ())) : Unit × Four C D E)) (hnl _)).mul (differentiableAt_apply ((i, .inl (.inl (c, d))) : Unit × Four C D E) q))
  · exact (differentiableAt_linear (x := fun y => map nl (d1 y)) (fun r => θ (.inr r))
      (fun i c e => differentiableAt_nl (k := ((i, .inl (.inl (c, e))) : Unit × Four C D E)) (hnl _)) i c e).sub
      ((differentiableAt_nl (k := ((i, .inr (.inr ())) : Unit × Four C D E)) (hnl _)).mul (differentiableAt_apply ((i, .inl (.inr (c, e))) : Unit × Four C D E) q))
  · exact differentiableAt_const 0

end

end Verif.Symmetry
