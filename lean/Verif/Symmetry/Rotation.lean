import Verif.Symmetry.Lemmas
import Mathlib.LinearAlgebra.FiniteDimensional.Lemmas
import Mathlib.LinearAlgebra.FiniteDimensional.Basic
import Mathlib.LinearAlgebra.Pi

/-! # Rotations and hidden-unit permutations: lemmas for C63 -/

set_option linter.unusedSectionVars false

namespace Verif.Symmetry
open Verif.Shooting Verif.Evolution

variable {ι β K P : Type}

/-- A linear map of the parameters that does not change the kinetic energy. -/
def Iso [Fintype P] (w : P → Option ℝ) (A : (P → ℝ) →ₗ[ℝ] (P → ℝ)) : Prop :=
  ∀ θ, ∑ r, weight w r * A θ r ^ 2 = ∑ r, weight w r * θ r ^ 2

/-- `L` moves states and `ρ` parameters such that the right-hand side moves along. -/
structure IsSymmetry [Fintype K] [Fintype P] (f : Class K P) (w : P → Option ℝ) (L : (K → ℝ) →ₗ[ℝ] (K → ℝ)) (ρ : (P → ℝ) →ₗ[ℝ] (P → ℝ)) : Prop where
  orth : Orthogonal L
  iso : Iso w ρ
  equiv : ∀ θ y, rowRhs f (ρ θ) (L y) = L (rowRhs f θ y)

section
variable [Fintype K] [Fintype P]

theorem Iso.surjective {w : P → Option ℝ} (hw : ∀ r, 0 < weight w r) {A : (P → ℝ) →ₗ[ℝ] (P → ℝ)} (h : Iso w A) : Function.Surjective A := by
  apply LinearMap.surjective_of_injective
  rw [injective_iff_map_eq_zero]
  intro θ hθ
  have h1 := h θ
  rw [hθ] at h1
  simp only [Pi.zero_apply, ne_eq, OfNat.ofNat_ne_zero, not_false_eq_true, zero_pow, mul_zero, Finset.sum_const_zero] at h1
  have h2 := (Finset.sum_eq_zero_iff_of_nonneg fun r _ => mul_nonneg (hw r).le (sq_nonneg (θ r))).1 h1.symm
  funext r
  have := h2 r (Finset.mem_univ r)
  exact pow_eq_zero_iff (two_ne_zero) |>.1 ((mul_eq_zero.1 this).resolve_left (hw r).ne')

theorem iso_of_orthogonal {L : (K → ℝ) →ₗ[ℝ] (K → ℝ)} (h : Orthogonal L) : Iso (fun _ => none) L := by
  intro x
  have := h.inner x x
  simpa [weight, pow_two] using this

theorem sum_mapRows [Fintype ι] {L : (K → ℝ) →ₗ[ℝ] (K → ℝ)} (h : Orthogonal L) (x y : ι × K → ℝ) :
    ∑ m, mapRows L x m * mapRows L y m = ∑ m, x m * y m := by
  rw [Fintype.sum_prod_type, Fintype.sum_prod_type]
  refine Finset.sum_congr rfl fun i _ => ?_
  exact h.inner (fun k => x (i, k)) (fun k => y (i, k))

/-- Moving the rows, as a linear map. -/
def rowsL (L : (K → ℝ) →ₗ[ℝ] (K → ℝ)) : (ι × K → ℝ) →ₗ[ℝ] (ι × K → ℝ) where
  toFun := mapRows L
  map_add' x y := by
    funext m
    show L (fun k => x (m.1, k) + y (m.1, k)) m.2 = _
    rw [show (fun k => x (m.1, k) + y (m.1, k)) = (fun k => x (m.1, k)) + fun k => y (m.1, k) from rfl, map_add]
    rfl
  map_smul' a x := by
    funext m
    show L (fun k => a * x (m.1, k)) m.2 = _
    rw [show (fun k => a * x (m.1, k)) = a • fun k => x (m.1, k) from rfl, map_smul]
    rfl

theorem rowsL_surjective [Fintype ι] {L : (K → ℝ) →ₗ[ℝ] (K → ℝ)} (h : Orthogonal L) : Function.Surjective (rowsL (ι := ι) L) := by
  refine Iso.surjective (w := fun _ => none) (fun _ => by norm_num [weight]) (iso_of_orthogonal ⟨?_⟩)
  exact sum_mapRows h

theorem rhs_move {f : Class K P} (hf : Rowwise f) {w : P → Option ℝ} {L : (K → ℝ) →ₗ[ℝ] (K → ℝ)} {ρ : (P → ℝ) →ₗ[ℝ] (P → ℝ)}
    (h : IsSymmetry f w L ρ) (κ : Type) (θ : P → ℝ) (x : κ × K → ℝ) : f κ (ρ θ) (mapRows L x) = mapRows L (f κ θ x) := by
  funext m
  obtain ⟨i, k⟩ := m
  rw [rhs_eq_row hf]
  have h1 := congrFun (h.equiv θ fun l => x (i, l)) k
  have e : (fun l => f κ θ x (i, l)) = rowRhs f θ fun l => x (i, l) := by
    funext l
    exact rhs_eq_row hf κ θ x i l
  show _ = L (fun l => f κ θ x (i, l)) k
  rw [e, ← h1]
  rfl

variable [Fintype ι]

theorem lagrangian_move {f : Class K P} (hf : Rowwise f) {w : P → Option ℝ} {L : (K → ℝ) →ₗ[ℝ] (K → ℝ)} {ρ : (P → ℝ) →ₗ[ℝ] (P → ℝ)}
    (h : IsSymmetry f w L ρ) (q p : ι × K → ℝ) (θ : P → ℝ) :
    kineticEnergy w (ρ θ) = kineticEnergy w θ ∧
    lagrangian (f ι) w (mapRows L q) (mapRows L p) (ρ θ) = lagrangian (f ι) w q p θ := by
  have h1 : kineticEnergy w (ρ θ) = kineticEnergy w θ := by
    unfold kineticEnergy
    rw [h.iso θ]
  refine ⟨h1, ?_⟩
  unfold lagrangian
  rw [h1, potentialEnergy_eq, potentialEnergy_eq, rhs_move hf h, sum_mapRows h.orth]

theorem direct_move {f : Class K P} (hf : Rowwise f) (ha : AffineInParams (f ι)) {w : P → Option ℝ} (hw : ∀ r, 0 < weight w r)
    {L : (K → ℝ) →ₗ[ℝ] (K → ℝ)} {ρ : (P → ℝ) →ₗ[ℝ] (P → ℝ)} (h : IsSymmetry f w L ρ) (θ0 θ1 : P → ℝ) (q p : ι × K → ℝ) :
    directParameters (f ι) w θ1 (mapRows L q) (mapRows L p) = ρ (directParameters (f ι) w θ0 q p) := by
  by_contra hne
  have h1 := C32_unique_minimiser ha w hw θ1 (mapRows L q) (mapRows L p) (ρ (directParameters (f ι) w θ0 q p)) (Ne.symm hne)
  obtain ⟨θ2, h2⟩ := h.iso.surjective hw (directParameters (f ι) w θ1 (mapRows L q) (mapRows L p))
  change lagrangian (f ι) w _ _ _ < lagrangian (f ι) w _ _ _ at h1
  rw [← h2, (lagrangian_move hf h q p _).2, (lagrangian_move hf h q p _).2] at h1
  by_cases h3 : θ2 = directParameters (f ι) w θ0 q p
  · rw [h3] at h1
    exact lt_irrefl _ h1
  · exact absurd (C32_unique_minimiser ha w hw θ0 q p θ2 h3) (not_lt.2 h1.le)

theorem grad_move {L : (K → ℝ) →ₗ[ℝ] (K → ℝ)} (hL : Orthogonal L) {F F' : (ι × K → ℝ) → ℝ} {q g g' : ι × K → ℝ}
    (hF : ∀ x, F' (mapRows L x) = F x) (h : HasGrad F g q) (h' : HasGrad F' g' (mapRows L q)) : g' = mapRows L g := by
  have h1 := HasFDerivAt.comp q (f := fun x => (rowsL L).toContinuousLinearMap x) (g := F') h' (rowsL L).toContinuousLinearMap.hasFDerivAt
  have h2 : HasFDerivAt F _ q := h1.congr_of_eventuallyEq (Filter.Eventually.of_forall fun x => (hF x).symm)
  have h3 := h2.unique h
  obtain ⟨v, hv⟩ := rowsL_surjective hL (g' - mapRows L g)
  have h4 := DFunLike.congr_fun h3 v
  rw [grad_apply, ContinuousLinearMap.comp_apply, grad_apply] at h4
  rw [← sum_mapRows hL g v] at h4
  have hv' : mapRows L v = g' - mapRows L g := hv
  have h5 : ∑ m, (g' m - mapRows L g m) * (g' m - mapRows L g m) = 0 := by
    have h6 : ∑ m, g' m * mapRows L v m = ∑ m, mapRows L g m * mapRows L v m := h4
    rw [hv'] at h6
    simp only [Pi.sub_apply] at h6
    simp only [sub_mul, Finset.sum_sub_distrib]
    linarith
  have h7 := (Finset.sum_eq_zero_iff_of_nonneg fun m _ => mul_self_nonneg (g' m - mapRows L g m)).1 h5
  funext m
  have := mul_self_eq_zero.1 (h7 m (Finset.mem_univ m))
  linarith

theorem costate_move [Nonempty ι] {f : Class K P} (hf : Rowwise f) (hd : DiffRow f) (ha : AffineInParams (f ι)) {w : P → Option ℝ}
    (hw : ∀ r, 0 < weight w r) {L : (K → ℝ) →ₗ[ℝ] (K → ℝ)} {ρ : (P → ℝ) →ₗ[ℝ] (P → ℝ)} (h : IsSymmetry f w L ρ) (θ0 θ1 : P → ℝ)
    (q p : ι × K → ℝ) : costateRhs (f ι) w θ1 (mapRows L q) (mapRows L p) = mapRows L (costateRhs (f ι) w θ0 q p) := by
  have h1 := hasGrad_reduced ha w (fun r => (hw r).ne') θ0 p fun θ j => diff_of_row hf hd θ q j
  have h2 := hasGrad_reduced ha w (fun r => (hw r).ne') θ1 (mapRows L p) fun θ j => diff_of_row hf hd θ (mapRows L q) j
  have h3 := grad_move h.orth (fun x => by
    unfold reducedLagrangian
    rw [direct_move hf ha hw h θ0 θ1 x p, (lagrangian_move hf h x p _).2]) h1 h2
  unfold costateRhs
  rw [h1.autograd_eq, h2.autograd_eq, h3]

end

/-- Moving everything, as a linear map. -/
def moveL (L : (K → ℝ) →ₗ[ℝ] (K → ℝ)) : Sys ι β K →ₗ[ℝ] Sys ι β K where
  toFun := moveAll L
  map_add' _ _ := Prod.ext ((rowsL L).map_add _ _) (Prod.ext ((rowsL L).map_add _ _) ((rowsL L).map_add _ _))
  map_smul' _ _ := Prod.ext ((rowsL L).map_smul _ _) (Prod.ext ((rowsL L).map_smul _ _) ((rowsL L).map_smul _ _))

/-! ## Matrices -/

section Matrices
variable {D E O I C Q : Type} [Fintype D] [Fintype E] [Fintype O] [Fintype I] [DecidableEq D] [DecidableEq O] [DecidableEq I] [DecidableEq E]

/-- Matrix times vector. -/
def mv (U : D → D → ℝ) (x : D → ℝ) : D → ℝ := fun d => ∑ d', U d d' * x d'

theorem mv_add (U : D → D → ℝ) (x y : D → ℝ) : mv U (x + y) = mv U x + mv U y := by
  funext d
  simp [mv, mul_add, Finset.sum_add_distrib]

theorem mv_smul (U : D → D → ℝ) (a : ℝ) (x : D → ℝ) : mv U (a • x) = a • mv U x := by
  funext d
  simp only [mv, Pi.smul_apply, smul_eq_mul, Finset.mul_sum]
  exact Finset.sum_congr rfl fun _ _ => by ring

theorem mv_inner {U : D → D → ℝ} (hU : OrthogonalMatrix U) (x y : D → ℝ) : ∑ d, mv U x d * mv U y d = ∑ d, x d * y d := by
  have h0 : ∀ d, mv U x d * mv U y d = ∑ a, ∑ b, U d a * x a * (U d b * y b) := fun d => Finset.sum_mul_sum _ _ _ _
  simp only [h0]
  rw [Finset.sum_comm]
  have : ∀ a, ∑ d, ∑ b, U d b * y b * (U d a * x a) = x a * y a := by
    intro a
    rw [Finset.sum_comm]
    have e : ∀ b, ∑ d, U d b * y b * (U d a * x a) = (if a = b then 1 else 0) * (x a * y b) := by
      intro b
      rw [← hU a b, Finset.sum_mul]
      exact Finset.sum_congr rfl fun _ _ => by ring
    simp [e]
  have h2 : ∀ a, ∑ d, ∑ b, U d a * x a * (U d b * y b) = x a * y a := by
    intro a
    rw [← this a]
    exact Finset.sum_congr rfl fun _ _ => Finset.sum_congr rfl fun _ _ => by ring
  exact Finset.sum_congr rfl fun a _ => h2 a

theorem mv_sq {U : D → D → ℝ} (hU : OrthogonalMatrix U) (x : D → ℝ) : ∑ d, mv U x d ^ 2 = ∑ d, x d ^ 2 := by
  have := mv_inner hU x x
  simpa [pow_two] using this

/-- `W ↦ U W Vᵀ`. -/
def moveNB (U : O → O → ℝ) (V : I → I → ℝ) : (O × I → ℝ) →ₗ[ℝ] (O × I → ℝ) where
  toFun θ r := mv U (fun o => mv V (fun j => θ (o, j)) r.2) r.1
  map_add' x y := by
    funext r
    simp [mv, mul_add, Finset.sum_add_distrib]
  map_smul' a x := by
    funext r
    simp only [mv, Pi.smul_apply, smul_eq_mul, Finset.mul_sum, RingHom.id_apply]
    exact Finset.sum_congr rfl fun _ _ => Finset.sum_congr rfl fun _ _ => by ring

/-- `(W, b) ↦ (U W Vᵀ, U b)`. -/
def moveLayer (U : O → O → ℝ) (V : I → I → ℝ) : (Models.Layer O I → ℝ) →ₗ[ℝ] (Models.Layer O I → ℝ) where
  toFun θ r := match r with
    | (o, some j) => mv U (fun o => mv V (fun j => θ (o, some j)) j) o
    | (o, none) => mv U (fun o => θ (o, none)) o
  map_add' x y := by
    funext r
    rcases r with ⟨o, _ | j⟩ <;> simp [mv, mul_add, Finset.sum_add_distrib]
  map_smul' a x := by
    funext r
    rcases r with ⟨o, _ | j⟩
    · simp only [mv, Pi.smul_apply, smul_eq_mul, Finset.mul_sum, RingHom.id_apply]
      exact Finset.sum_congr rfl fun _ _ => by ring
    · simp only [mv, Pi.smul_apply, smul_eq_mul, Finset.mul_sum, RingHom.id_apply]
      exact Finset.sum_congr rfl fun _ _ => Finset.sum_congr rfl fun _ _ => by ring

/-- Two groups of parameters moved separately. -/
def moveSum (A : (P → ℝ) →ₗ[ℝ] (P → ℝ)) (B : (Q → ℝ) →ₗ[ℝ] (Q → ℝ)) : (P ⊕ Q → ℝ) →ₗ[ℝ] (P ⊕ Q → ℝ) where
  toFun θ := Sum.elim (A fun r => θ (.inl r)) (B fun r => θ (.inr r))
  map_add' x y := by
    funext r
    rcases r with r | r
    · exact congrFun (A.map_add (fun r => x (.inl r)) fun r => y (.inl r)) r
    · exact congrFun (B.map_add (fun r => x (.inr r)) fun r => y (.inr r)) r
  map_smul' a x := by
    funext r
    rcases r with r | r
    · exact congrFun (A.map_smul a (fun r => x (.inl r))) r
    · exact congrFun (B.map_smul a (fun r => x (.inr r))) r

theorem iso_moveSum [Fintype P] [Fintype Q] {w : P ⊕ Q → Option ℝ} {A : (P → ℝ) →ₗ[ℝ] (P → ℝ)} {B : (Q → ℝ) →ₗ[ℝ] (Q → ℝ)}
    (hA : Iso (fun r => w (.inl r)) A) (hB : Iso (fun r => w (.inr r)) B) : Iso w (moveSum A B) := by
  intro θ
  rw [Fintype.sum_sum_type, Fintype.sum_sum_type]
  rw [show ∑ r, weight w (.inl r) * moveSum A B θ (.inl r) ^ 2 = ∑ r, weight w (.inl r) * θ (.inl r) ^ 2 from hA fun r => θ (.inl r)]
  rw [show ∑ r, weight w (.inr r) * moveSum A B θ (.inr r) ^ 2 = ∑ r, weight w (.inr r) * θ (.inr r) ^ 2 from hB fun r => θ (.inr r)]

theorem iso_moveNB {U : O → O → ℝ} {V : I → I → ℝ} (hU : OrthogonalMatrix U) (hV : OrthogonalMatrix V) {w : O × I → Option ℝ} {a : ℝ}
    (hw : ∀ r, weight w r = a) : Iso w (moveNB U V) := by
  intro θ
  simp only [hw, ← Finset.mul_sum]
  congr 1
  rw [Fintype.sum_prod_type, Fintype.sum_prod_type, Finset.sum_comm]
  have h1 : ∀ j, ∑ o, moveNB U V θ (o, j) ^ 2 = ∑ o, mv V (fun j => θ (o, j)) j ^ 2 := fun j =>
    mv_sq hU fun o => mv V (fun j => θ (o, j)) j
  simp only [h1]
  rw [Finset.sum_comm]
  exact Finset.sum_congr rfl fun o _ => mv_sq hV fun j => θ (o, j)

theorem iso_moveLayer {U : O → O → ℝ} {V : I → I → ℝ} (hU : OrthogonalMatrix U) (hV : OrthogonalMatrix V)
    {w : Models.Layer O I → Option ℝ} {a b : ℝ} (hw : ∀ o j, weight w (o, some j) = a) (hb : ∀ o, weight w (o, none) = b) :
    Iso w (moveLayer U V) := by
  intro θ
  rw [Fintype.sum_prod_type, Fintype.sum_prod_type]
  simp only [Fintype.sum_option, Finset.sum_add_distrib, hw, hb, ← Finset.mul_sum]
  have h0 : ∑ o, moveLayer U V θ (o, none) ^ 2 = ∑ o, θ (o, none) ^ 2 := mv_sq hU _
  have h1 : ∀ j, ∑ o, moveLayer U V θ (o, some j) ^ 2 = ∑ o, mv V (fun j => θ (o, some j)) j ^ 2 := fun j => mv_sq hU _
  rw [h0, Finset.sum_comm]
  simp only [h1]
  rw [Finset.sum_comm]
  congr 2
  exact Finset.sum_congr rfl fun o _ => mv_sq hV _

open Verif.Models in
theorem linearNB_move (U : O → O → ℝ) {V : I → I → ℝ} (hV : OrthogonalMatrix V) (θ : O × I → ℝ) (x : I → ℝ) (o : O) :
    ∑ j, mv V x j * moveNB U V θ (o, j) = mv U (fun o' => ∑ j, x j * θ (o', j)) o := by
  have : ∀ j, moveNB U V θ (o, j) = ∑ o', U o o' * mv V (fun j => θ (o', j)) j := fun j => rfl
  simp only [this, Finset.mul_sum]
  rw [Finset.sum_comm]
  show _ = ∑ o', U o o' * ∑ j, x j * θ (o', j)
  refine Finset.sum_congr rfl fun o' _ => ?_
  rw [← mv_inner hV x fun j => θ (o', j), Finset.mul_sum]
  exact Finset.sum_congr rfl fun _ _ => by ring

theorem linear_move (U : O → O → ℝ) {V : I → I → ℝ} (hV : OrthogonalMatrix V) (θ : Models.Layer O I → ℝ) (x : I → ℝ) (o : O) :
    ∑ j, mv V x j * moveLayer U V θ (o, some j) + moveLayer U V θ (o, none) =
      mv U (fun o' => ∑ j, x j * θ (o', some j) + θ (o', none)) o := by
  have h1 := linearNB_move U hV (fun r => θ (r.1, some r.2)) x o
  have h2 : (fun o' => ∑ j, x j * θ (o', some j) + θ (o', none)) = (fun o' => ∑ j, x j * θ (o', some j)) + fun o' => θ (o', none) := rfl
  rw [h2, mv_add]
  show _ = mv U (fun o' => ∑ j, x j * θ (o', some j)) o + mv U (fun o' => θ (o', none)) o
  rw [← h1]
  rfl

/-- The coordinates of one particle: `q1` moved by `U`, `q2` by `V`. -/
def moveTwo (U : D → D → ℝ) (V : E → E → ℝ) : (Models.Two C D E → ℝ) →ₗ[ℝ] (Models.Two C D E → ℝ) where
  toFun y k := match k with
    | .inl (c, d) => mv U (fun d' => y (.inl (c, d'))) d
    | .inr (c, e) => mv V (fun e' => y (.inr (c, e'))) e
  map_add' x y := by
    funext k
    rcases k with ⟨c, d⟩ | ⟨c, e⟩ <;> simp [mv, mul_add, Finset.sum_add_distrib]
  map_smul' a x := by
    funext k
    rcases k with ⟨c, d⟩ | ⟨c, d⟩
    all_goals
      simp only [mv, Pi.smul_apply, smul_eq_mul, Finset.mul_sum, RingHom.id_apply]
      exact Finset.sum_congr rfl fun _ _ => by ring

theorem orthogonal_moveTwo [Fintype C] {U : D → D → ℝ} {V : E → E → ℝ} (hU : OrthogonalMatrix U) (hV : OrthogonalMatrix V) :
    Orthogonal (moveTwo (C := C) U V) := by
  refine ⟨fun x y => ?_⟩
  rw [Fintype.sum_sum_type, Fintype.sum_sum_type]
  simp only [Fintype.sum_prod_type]
  exact congrArg₂ (· + ·) (Finset.sum_congr rfl fun c _ => mv_inner hU _ _) (Finset.sum_congr rfl fun c _ => mv_inner hV _ _)

/-- The coordinates of one particle of the simple model. -/
def moveOne (U : D → D → ℝ) : (C × D → ℝ) →ₗ[ℝ] (C × D → ℝ) where
  toFun y k := mv U (fun d' => y (k.1, d')) k.2
  map_add' x y := by
    funext k
    simp [mv, mul_add, Finset.sum_add_distrib]
  map_smul' a x := by
    funext k
    simp only [mv, Pi.smul_apply, smul_eq_mul, Finset.mul_sum, RingHom.id_apply]
    exact Finset.sum_congr rfl fun _ _ => by ring

theorem orthogonal_moveOne [Fintype C] {U : D → D → ℝ} (hU : OrthogonalMatrix U) : Orthogonal (moveOne (C := C) U) := by
  refine ⟨fun x y => ?_⟩
  rw [Fintype.sum_prod_type, Fintype.sum_prod_type]
  exact Finset.sum_congr rfl fun c _ => mv_inner hU (fun d => x (c, d)) fun d => y (c, d)

end Matrices

end Verif.Symmetry
