import Verif.Models.Model
import Verif.Shooting.Props
import Mathlib.Data.Fintype.BigOperators

/-!
# Building blocks for the model classes: one linear layer at a time
-/

set_option linter.unusedSectionVars false

namespace Verif.Models
open Verif.Shooting

variable {ι C D E O I P J : Type} [Fintype ι] [Fintype C] [Fintype D] [Fintype E] [Fintype O] [Fintype I] [Fintype P] [Fintype J]

/-- Sum of the products of all entries. -/
def pair (p x : T3 ι C D) : ℝ := ∑ i, ∑ c, ∑ d, p i c d * x i c d

theorem pair_add (p x y : T3 ι C D) : pair p (x + y) = pair p x + pair p y := by
  simp [pair, mul_add, Finset.sum_add_distrib]

theorem pair_sub (p x y : T3 ι C D) : pair p (x - y) = pair p x - pair p y := by
  simp [pair, mul_sub, Finset.sum_sub_distrib]

theorem pair_add_left (p x y : T3 ι C D) : pair (x + y) p = pair x p + pair y p := by
  simp [pair, add_mul, Finset.sum_add_distrib]

theorem sum_join (p : ι × Two C D E → ℝ) (x : T3 ι C D) (y : T3 ι C E) :
    ∑ k, p k * join x y k = pair (q1 p) x + pair (q2 p) y := by
  simp [Fintype.sum_prod_type, Fintype.sum_sum_type, pair, join, q1, q2, Finset.sum_add_distrib]

theorem sum_join3 (p : ι × Three C D E → ℝ) (x : T3 ι C D) (y : T3 ι C E) (z : T3 ι C D) :
    ∑ k, p k * join3 x y z k = pair (s1 p) x + (pair (s2 p) y + pair (s3 p) z) := by
  simp [Fintype.sum_prod_type, Fintype.sum_sum_type, pair, join3, s1, s2, s3, Finset.sum_add_distrib]

theorem sum_single (p : ι × (C × D) → ℝ) (x : T3 ι C D) : ∑ k, p k * single x k = pair (one p) x := by
  simp [Fintype.sum_prod_type, pair, single, one]

theorem sum_join_left (v : ι × Two C D E → ℝ) (x : T3 ι C D) (y : T3 ι C E) :
    ∑ k, join x y k * v k = pair x (q1 v) + pair y (q2 v) := by
  simp [Fintype.sum_prod_type, Fintype.sum_sum_type, pair, join, q1, q2, Finset.sum_add_distrib]

theorem sum_join3_left (v : ι × Three C D E → ℝ) (x : T3 ι C D) (y : T3 ι C E) (z : T3 ι C D) :
    ∑ k, join3 x y z k * v k = pair x (s1 v) + (pair y (s2 v) + pair z (s3 v)) := by
  simp [Fintype.sum_prod_type, Fintype.sum_sum_type, pair, join3, s1, s2, s3, Finset.sum_add_distrib]

theorem sum_single_left (v : ι × (C × D) → ℝ) (x : T3 ι C D) : ∑ k, single x k * v k = pair x (one v) := by
  simp [Fintype.sum_prod_type, pair, single, one]

/-! ## Parameters -/

/-- Gradient of `pair p (linear θ x)` with respect to the weight matrix. -/
def gradNB (p : T3 ι C O) (x : T3 ι C I) : O × I → ℝ := fun r => ∑ i, ∑ c, p i c r.1 * x i c r.2

/-- Gradient of `pair p (linear θ x)` with respect to the layer. -/
def gradLayer (p : T3 ι C O) (x : T3 ι C I) : Layer O I → ℝ
  | (o, some j) => ∑ i, ∑ c, p i c o * x i c j
  | (o, none) => ∑ i, ∑ c, p i c o

theorem pair_linearNB (p : T3 ι C O) (θ : O × I → ℝ) (x : T3 ι C I) :
    pair p (linearNB θ x) = ∑ r, gradNB p x r * θ r := by
  unfold pair linearNB gradNB
  simp only [Fintype.sum_prod_type, Finset.mul_sum, Finset.sum_mul]
  have h1 : ∀ i, ∑ c, ∑ o, ∑ j, p i c o * (x i c j * θ (o, j)) = ∑ o, ∑ j, ∑ c, p i c o * x i c j * θ (o, j) := by
    intro i
    rw [Finset.sum_comm]
    refine Finset.sum_congr rfl fun o _ => ?_
    rw [Finset.sum_comm]
    exact Finset.sum_congr rfl fun j _ => Finset.sum_congr rfl fun c _ => by ring
  simp only [h1]
  rw [Finset.sum_comm]
  refine Finset.sum_congr rfl fun o _ => ?_
  rw [Finset.sum_comm]

theorem pair_linear (p : T3 ι C O) (θ : Layer O I → ℝ) (x : T3 ι C I) :
    pair p (linear θ x) = ∑ r, gradLayer p x r * θ r := by
  have e : linear θ x = linearNB (fun r => θ (r.1, some r.2)) x + (fun _ _ o => θ (o, none)) := rfl
  rw [e, pair_add, pair_linearNB]
  simp only [Fintype.sum_prod_type, Fintype.sum_option, Finset.sum_add_distrib, gradLayer, gradNB]
  rw [add_comm]
  congr 1
  unfold pair
  simp only [Finset.sum_mul]
  have h1 : ∀ i : ι, ∑ c, ∑ o, p i c o * θ (o, none) = ∑ o, ∑ c, p i c o * θ (o, none) := fun i => Finset.sum_comm
  simp only [h1]
  rw [Finset.sum_comm]

/-- One formula for `∑ costate * rhs` as a function of the parameters settles both linearity and the parameters. -/
theorem affine_of_pairing {f : Rhs J P} (a : (J → ℝ) → (J → ℝ) → ℝ) (G : (J → ℝ) → (J → ℝ) → P → ℝ)
    (h : ∀ q p θ, ∑ k, p k * f θ q k = a q p + ∑ r, G q p r * θ r) : AffineInParams f := by
  classical
  intro q j
  refine ⟨a q (Pi.single j 1), G q (Pi.single j 1), fun θ => ?_⟩
  rw [← h]
  simp [Pi.single_apply]

theorem linear_of_pairing {f : Rhs J P} (G : (J → ℝ) → (J → ℝ) → P → ℝ)
    (h : ∀ q p θ, ∑ k, p k * f θ q k = ∑ r, G q p r * θ r) : LinearInParams f := by
  classical
  intro q j
  refine ⟨G q (Pi.single j 1), fun θ => ?_⟩
  rw [← h]
  simp [Pi.single_apply]

theorem direct_of_pairing {K : Type} [Fintype K] {f : Rhs (ι × K) P} {q p : ι × K → ℝ} {a : ℝ} {G : P → ℝ}
    (h : ∀ θ, ∑ k, p k * f θ q k = a + ∑ r, G r * θ r) (w : P → Option ℝ) (θ0 : P → ℝ) :
    directParameters f w θ0 q p = divideByWeight w (fun r => G r / Fintype.card ι) := by
  have e : ∀ θ, potentialEnergy f q p θ = a / Fintype.card ι + ∑ r, (G r / Fintype.card ι) * θ r := by
    intro θ
    rw [potentialEnergy_eq, h, add_div, Finset.sum_div]
    congr 1
    exact Finset.sum_congr rfl fun r _ => by ring
  have := (hasGrad_const (a / Fintype.card ι) θ0).add (hasGrad_linear (fun r => G r / Fintype.card ι) θ0)
  have h2 : HasGrad (fun θ => potentialEnergy f q p θ) (fun r => G r / Fintype.card ι) θ0 :=
    this.congr (fun y => e y) (fun k => by simp)
  unfold directParameters
  rw [h2.autograd_eq]

theorem direct_of_pairing_linear {K : Type} [Fintype K] {f : Rhs (ι × K) P} {q p : ι × K → ℝ} {G : P → ℝ}
    (h : ∀ θ, ∑ k, p k * f θ q k = ∑ r, G r * θ r) (w : P → Option ℝ) (θ0 : P → ℝ) :
    directParameters f w θ0 q p = divideByWeight w (fun r => G r / Fintype.card ι) :=
  direct_of_pairing (a := 0) (fun θ => by rw [h, zero_add]) w θ0

/-! The analytic tensors of the code are these gradients divided by the number of particles. -/

theorem sum_swap (f : ι → C → ℝ) [Unique C] : ∑ i, ∑ c, f i c = ∑ i, f i default := by simp

theorem layer_eq [Unique C] (p : T3 ι C O) (x : T3 ι C I) (W : O → I → ℝ) (b : C → O → ℝ)
    (hW : ∀ o j, W o j = (∑ i, ∑ c, p i c o * x i c j) / Fintype.card ι)
    (hb : ∀ c o, b c o = (∑ i, p i c o) / Fintype.card ι) :
    layer W b = fun r => gradLayer p x r / Fintype.card ι := by
  funext r
  rcases r with ⟨o, _ | j⟩
  · simp [layer, gradLayer, hb]
  · simp only [layer, gradLayer, hW]

theorem layerNB_eq (p : T3 ι C O) (x : T3 ι C I) (W : O → I → ℝ)
    (hW : ∀ o j, W o j = (∑ i, ∑ c, p i c o * x i c j) / Fintype.card ι) :
    layerNB W = fun r => gradNB p x r / Fintype.card ι := by
  funext r
  simp only [layerNB, gradNB, hW]

/-! ## Derivative with respect to the state -/

/-- `d v` is the derivative of `F` at `x` in direction `v`. -/
def HasDir (F : (J → ℝ) → ℝ) (x : J → ℝ) (d : (J → ℝ) → ℝ) : Prop :=
  ∃ L : (J → ℝ) →L[ℝ] ℝ, HasFDerivAt F L x ∧ ∀ v, L v = d v

theorem HasDir.add {F G : (J → ℝ) → ℝ} {x : J → ℝ} {d e : (J → ℝ) → ℝ} (hF : HasDir F x d) (hG : HasDir G x e) :
    HasDir (fun y => F y + G y) x (fun v => d v + e v) := by
  obtain ⟨L, hL, hd⟩ := hF
  obtain ⟨M, hM, he⟩ := hG
  exact ⟨L + M, hL.add hM, fun v => by rw [add_apply, hd, he]⟩

theorem HasDir.sub {F G : (J → ℝ) → ℝ} {x : J → ℝ} {d e : (J → ℝ) → ℝ} (hF : HasDir F x d) (hG : HasDir G x e) :
    HasDir (fun y => F y - G y) x (fun v => d v - e v) := by
  obtain ⟨L, hL, hd⟩ := hF
  obtain ⟨M, hM, he⟩ := hG
  exact ⟨L - M, hL.sub hM, fun v => by rw [sub_apply, hd, he]⟩

theorem HasDir.congr {F G : (J → ℝ) → ℝ} {x : J → ℝ} {d e : (J → ℝ) → ℝ} (hF : HasDir F x d)
    (h : ∀ y, G y = F y) (h' : ∀ v, e v = d v) : HasDir G x e := by
  obtain ⟨L, hL, hd⟩ := hF
  exact ⟨L, (funext h : G = F) ▸ hL, fun v => by rw [hd, h']⟩

theorem HasDir.hasGrad {F : (J → ℝ) → ℝ} {x g : J → ℝ} (h : HasDir F x fun v => ∑ k, g k * v k) : HasGrad F g x := by
  obtain ⟨L, hL, hd⟩ := h
  refine hL.congr_fderiv ?_
  ext v
  rw [hd, grad_apply]

theorem hasDir_sum {R : Type} [Fintype R] {F : R → (J → ℝ) → ℝ} {x : J → ℝ} {d : R → (J → ℝ) → ℝ}
    (h : ∀ r, HasDir (F r) x (d r)) : HasDir (fun y => ∑ r, F r y) x (fun v => ∑ r, d r v) := by
  choose L hL hd using h
  refine ⟨∑ r, L r, HasFDerivAt.fun_sum fun r _ => hL r, fun v => ?_⟩
  rw [sum_apply]
  exact Finset.sum_congr rfl fun r _ => hd r v

theorem hasDir_coord (φ : ℝ → ℝ) (φ' a : ℝ) (k : J) (x : J → ℝ) (h : HasDerivAt φ φ' (x k)) :
    HasDir (fun y => φ (y k) * a) x (fun v => φ' * a * v k) := by
  have h1 : HasFDerivAt (fun y : J → ℝ => y k) (ContinuousLinearMap.proj k : (J → ℝ) →L[ℝ] ℝ) x := hasFDerivAt_apply k x
  have h2 := (h.comp_hasFDerivAt x h1).mul_const a
  refine ⟨_, h2, fun v => ?_⟩
  simp
  ring

theorem pair_matmul (p : T3 ι C O) (W : O → I → ℝ) (x : T3 ι C I) :
    pair p (fun i c o => ∑ j, x i c j * W o j) = pair (matmul p W) x := by
  unfold pair matmul
  refine Finset.sum_congr rfl fun i _ => Finset.sum_congr rfl fun c _ => ?_
  simp only [Finset.mul_sum, Finset.sum_mul]
  rw [Finset.sum_comm]
  exact Finset.sum_congr rfl fun j _ => Finset.sum_congr rfl fun o _ => by ring

theorem hasDir_pair (m : T3 ι C I) (φ : ℝ → ℝ) (φ' : T3 ι C I) (e : ι → C → I → J) (x : J → ℝ)
    (h : ∀ i c j, HasDerivAt φ (φ' i c j) (x (e i c j))) :
    HasDir (fun y => pair m (fun i c j => φ (y (e i c j)))) x
      (fun v => pair (fun i c j => φ' i c j * m i c j) (fun i c j => v (e i c j))) := by
  unfold pair
  refine hasDir_sum fun i => hasDir_sum fun c => hasDir_sum fun j => ?_
  exact (hasDir_coord φ (φ' i c j) (m i c j) (e i c j) x (h i c j)).congr (fun y => by ring) (fun v => rfl)

/-- A layer without bias applied to `φ` of some entries of the state. -/
theorem hasDir_layerNB (p : T3 ι C O) (θ : O × I → ℝ) (φ : ℝ → ℝ) (φ' : T3 ι C I) (e : ι → C → I → J) (x : J → ℝ)
    (h : ∀ i c j, HasDerivAt φ (φ' i c j) (x (e i c j))) :
    HasDir (fun y => pair p (linearNB θ (fun i c j => φ (y (e i c j))))) x
      (fun v => pair (fun i c j => φ' i c j * matmul p (weightNB θ) i c j) (fun i c j => v (e i c j))) :=
  (hasDir_pair (matmul p (weightNB θ)) φ φ' e x h).congr (fun _ => pair_matmul p (weightNB θ) _) (fun _ => rfl)

/-- A layer with bias. -/
theorem hasDir_layer (p : T3 ι C O) (θ : Layer O I → ℝ) (φ : ℝ → ℝ) (φ' : T3 ι C I) (e : ι → C → I → J) (x : J → ℝ)
    (h : ∀ i c j, HasDerivAt φ (φ' i c j) (x (e i c j))) :
    HasDir (fun y => pair p (linear θ (fun i c j => φ (y (e i c j))))) x
      (fun v => pair (fun i c j => φ' i c j * matmul p (weightOf θ) i c j) (fun i c j => v (e i c j))) := by
  have h1 := hasDir_layerNB p (fun r => θ (r.1, some r.2)) φ φ' e x h
  have h2 : HasDir (fun _ : J → ℝ => pair p (fun _ _ o => θ (o, none))) x (fun _ => 0) :=
    ⟨0, hasFDerivAt_const _ _, fun _ => rfl⟩
  refine (h1.add h2).congr (fun y => ?_) (fun v => ?_)
  · rw [← pair_add]
    rfl
  · rw [add_zero]
    rfl

theorem differentiableAt_linear (θ : Layer O I → ℝ) {x : (J → ℝ) → T3 ι C I} {q : J → ℝ}
    (h : ∀ i c j, DifferentiableAt ℝ (fun y => x y i c j) q) (i : ι) (c : C) (o : O) :
    DifferentiableAt ℝ (fun y => linear θ (x y) i c o) q := by
  unfold linear
  refine DifferentiableAt.add_const _ (DifferentiableAt.fun_sum fun j _ => ?_)
  exact (h i c j).mul_const _

theorem differentiableAt_linearNB (θ : O × I → ℝ) {x : (J → ℝ) → T3 ι C I} {q : J → ℝ}
    (h : ∀ i c j, DifferentiableAt ℝ (fun y => x y i c j) q) (i : ι) (c : C) (o : O) :
    DifferentiableAt ℝ (fun y => linearNB θ (x y) i c o) q := by
  unfold linearNB
  refine DifferentiableAt.fun_sum fun j _ => ?_
  exact (h i c j).mul_const _

theorem differentiableAt_nl {nl : ℝ → ℝ} {q : J → ℝ} {k : J} (h : DifferentiableAt ℝ nl (q k)) :
    DifferentiableAt ℝ (fun y : J → ℝ => nl (y k)) q :=
  DifferentiableAt.comp q (g := nl) h (differentiableAt_apply k q)

end Verif.Models
