import Verif.Conv.Spec
import Verif.Models.Props
import Verif.Evolution.Lemmas
import Mathlib.Analysis.SpecialFunctions.Sqrt

set_option linter.unusedSectionVars false

namespace Verif.Conv
open Verif.Shooting Verif.Models Verif.Evolution

variable {ι C E O I J : Type} {h w : Nat} [Fintype ι] [Fintype C] [Fintype E] [Fintype O] [Fintype I] [Fintype J]

theorem at0_eq (x : Px h w → ℝ) (a b : ℤ) :
    at0 x a b = ∑ z : Px h w, if (z.1 : ℤ) = a ∧ (z.2 : ℤ) = b then x z else 0 := by
  unfold at0
  by_cases hp : (0 ≤ a ∧ a < h) ∧ (0 ≤ b ∧ b < w)
  · rw [dif_pos hp, Finset.sum_eq_single (⟨a.toNat, by omega⟩, ⟨b.toNat, by omega⟩)]
    · rw [if_pos]
      constructor <;> simp <;> omega
    · intro z _ hz
      rw [if_neg]
      rintro ⟨h1, h2⟩
      apply hz
      ext <;> simp <;> omega
    · simp
  · rw [dif_neg hp, Finset.sum_eq_zero]
    intro z _
    rw [if_neg]
    rintro ⟨h1, h2⟩
    have := z.1.2
    have := z.2.2
    omega

/-- Sum over kernel positions and pixels with the pixel inside. -/
theorem pair_conv_core (p : T3 ι O (Px h w)) (θ : Kernel O I → ℝ) (x : T3 ι I (Px h w)) :
    pair p (fun i o px => ∑ c, ∑ u : Fin 3, ∑ v : Fin 3, at0 (x i c) (px.1 + u - 1) (px.2 + v - 1) * θ (o, some (c, u, v))) =
      pair (convT θ p) x := by
  have key : ∀ (z y : Px h w) (u v : Fin 3), ((z.1 : ℤ) = y.1 + u - 1 ∧ (z.2 : ℤ) = y.2 + v - 1) ↔
      ((y.1 : ℤ) = z.1 - u + 1 ∧ (y.2 : ℤ) = z.2 - v + 1) := by
    intro z y u v
    constructor <;> rintro ⟨h1, h2⟩ <;> constructor <;> omega
  unfold pair convT
  refine Finset.sum_congr rfl fun i _ => ?_
  simp only [at0_eq, Finset.mul_sum, Finset.sum_mul]
  -- left: o, y, c, u, v, z; right: c, z, o, u, v, y
  have e : ∀ (f : O → Px h w → I → Fin 3 → Fin 3 → Px h w → ℝ),
      ∑ o, ∑ y, ∑ c, ∑ u, ∑ v, ∑ z, f o y c u v z = ∑ c, ∑ z, ∑ o, ∑ u, ∑ v, ∑ y, f o y c u v z := by
    intro f
    have e1 : ∀ o, ∑ y, ∑ c, ∑ u, ∑ v, ∑ z, f o y c u v z = ∑ c, ∑ z, ∑ u, ∑ v, ∑ y, f o y c u v z := by
      intro o
      rw [Finset.sum_comm]
      refine Finset.sum_congr rfl fun c _ => ?_
      rw [Finset.sum_comm]
      conv_rhs => rw [Finset.sum_comm]
      refine Finset.sum_congr rfl fun u _ => ?_
      rw [Finset.sum_comm]
      conv_rhs => rw [Finset.sum_comm]
      refine Finset.sum_congr rfl fun v _ => ?_
      rw [Finset.sum_comm]
    simp only [e1]
    rw [Finset.sum_comm]
    refine Finset.sum_congr rfl fun c _ => ?_
    rw [Finset.sum_comm]
  rw [e]
  refine Finset.sum_congr rfl fun c _ => Finset.sum_congr rfl fun z _ => Finset.sum_congr rfl fun o _ =>
    Finset.sum_congr rfl fun u _ => Finset.sum_congr rfl fun v _ => Finset.sum_congr rfl fun y _ => ?_
  by_cases hk : (z.1 : ℤ) = y.1 + u - 1 ∧ (z.2 : ℤ) = y.2 + v - 1
  · rw [if_pos hk, if_pos ((key z y u v).1 hk)]
    ring
  · rw [if_neg hk, if_neg fun h => hk ((key z y u v).2 h)]
    ring

theorem conv2d_eq (θ : Kernel O I → ℝ) (x : T3 ι I (Px h w)) :
    conv2d θ x = (fun i o px => ∑ c, ∑ u : Fin 3, ∑ v : Fin 3, at0 (x i c) (px.1 + u - 1) (px.2 + v - 1) * θ (o, some (c, u, v))) +
      fun _ o _ => θ (o, none) := rfl

/-- Unnormalised `kernelOf`. -/
def gradKernel (p : T3 ι O (Px h w)) (x : T3 ι I (Px h w)) : Kernel O I → ℝ
  | (o, some (c, u, v)) => ∑ i, ∑ z : Px h w, p i o z * at0 (x i c) (z.1 + u - 1) (z.2 + v - 1)
  | (o, none) => ∑ i, ∑ z, p i o z

theorem kernelOf_eq (p : T3 ι O (Px h w)) (x : T3 ι I (Px h w)) (r : Kernel O I) :
    kernelOf p x r = gradKernel p x r / Fintype.card ι := by
  rcases r with ⟨o, _ | ⟨c, u, v⟩⟩ <;> rfl

theorem pair_conv2d (p : T3 ι O (Px h w)) (θ : Kernel O I → ℝ) (x : T3 ι I (Px h w)) :
    pair p (conv2d θ x) = ∑ r, gradKernel p x r * θ r := by
  rw [conv2d_eq, pair_add, Fintype.sum_prod_type]
  simp only [Fintype.sum_option, Finset.sum_add_distrib, gradKernel]
  rw [add_comm]
  congr 1
  · unfold pair
    simp only [Finset.sum_mul]
    rw [Finset.sum_comm]
  · unfold pair
    simp only [Fintype.sum_prod_type (α₁ := I), Fintype.sum_prod_type (α₁ := Fin 3) (α₂ := Fin 3), Finset.mul_sum, Finset.sum_mul]
    rw [Finset.sum_comm]
    refine Finset.sum_congr rfl fun o _ => ?_
    have e : ∀ (f : ι → Px h w → I → Fin 3 → Fin 3 → ℝ),
        ∑ i, ∑ z, ∑ c, ∑ u, ∑ v, f i z c u v = ∑ c, ∑ u, ∑ v, ∑ i, ∑ z, f i z c u v := by
      intro f
      have e1 : ∀ i, ∑ z, ∑ c, ∑ u, ∑ v, f i z c u v = ∑ c, ∑ u, ∑ v, ∑ z, f i z c u v := by
        intro i
        rw [Finset.sum_comm]
        refine Finset.sum_congr rfl fun c _ => ?_
        rw [Finset.sum_comm]
        refine Finset.sum_congr rfl fun u _ => ?_
        rw [Finset.sum_comm]
      simp only [e1]
      rw [Finset.sum_comm]
      refine Finset.sum_congr rfl fun c _ => ?_
      rw [Finset.sum_comm]
      refine Finset.sum_congr rfl fun u _ => ?_
      rw [Finset.sum_comm]
    refine (e _).trans ?_
    exact Finset.sum_congr rfl fun c _ => Finset.sum_congr rfl fun u _ => Finset.sum_congr rfl fun v _ =>
      Finset.sum_congr rfl fun i _ => Finset.sum_congr rfl fun z _ => by ring

theorem sum_joinI (p : ι × Imgs C E h w → ℝ) (x : T3 ι C (Px h w)) (y : T3 ι E (Px h w)) :
    ∑ k, p k * joinI x y k = pair (i1 p) x + pair (i2 p) y := by
  unfold pair
  rw [Fintype.sum_prod_type]
  simp only [Fintype.sum_sum_type, Finset.sum_add_distrib, Fintype.sum_prod_type (α₂ := Px h w)]
  rfl

theorem sum_joinI_left (v : ι × Imgs C E h w → ℝ) (x : T3 ι C (Px h w)) (y : T3 ι E (Px h w)) :
    ∑ k, joinI x y k * v k = pair x (i1 v) + pair y (i2 v) := by
  unfold pair
  rw [Fintype.sum_prod_type]
  simp only [Fintype.sum_sum_type, Finset.sum_add_distrib, Fintype.sum_prod_type (α₂ := Px h w)]
  rfl

theorem neg_joinI (x : T3 ι C (Px h w)) (y : T3 ι E (Px h w)) : (fun k => - joinI x y k) = joinI (-x) (-y) := by
  funext k
  rcases k with ⟨i, ⟨c, d⟩ | ⟨c, e⟩⟩ <;> rfl

/-! ## Linear in the parameters -/

theorem pairing_upDownConv (nl : ℝ → ℝ) (q p : ι × Imgs C E h w → ℝ) (θ : ConvPar C E → ℝ) :
    ∑ k, p k * upDownConv nl θ q k =
      ∑ r, Sum.elim (gradKernel (i1 p) (map nl (i2 q))) (gradKernel (i2 p) (i1 q)) r * θ r := by
  unfold upDownConv
  rw [sum_joinI, pair_conv2d, pair_conv2d, Fintype.sum_sum_type]
  rfl

theorem pairing_convBatch (nl : ℝ → ℝ) (ε : ℝ) (q p : ι × Imgs C C h w → ℝ) (θ : ConvPar C C → ℝ) :
    ∑ k, p k * convBatch nl ε θ q k =
      ∑ r, Sum.elim (gradKernel (i1 p) (map nl (i2 q))) (gradKernel (i2 p) (groupNorm ε (i1 q))) r * θ r := by
  unfold convBatch
  rw [sum_joinI, pair_conv2d, pair_conv2d, Fintype.sum_sum_type]
  rfl

theorem linear_upDownConv (nl : ℝ → ℝ) : LinearInParams (upDownConv nl : Rhs (ι × Imgs C E h w) _) :=
  linear_of_pairing _ fun q p θ => pairing_upDownConv nl q p θ

theorem linear_convBatch (nl : ℝ → ℝ) (ε : ℝ) : LinearInParams (convBatch nl ε : Rhs (ι × Imgs C C h w) _) :=
  linear_of_pairing _ fun q p θ => pairing_convBatch nl ε q p θ

/-! ## Derivatives -/

theorem hasDir_conv (p : T3 ι O (Px h w)) (θ : Kernel O I → ℝ) (φ : ℝ → ℝ) (φ' : T3 ι I (Px h w)) (e : ι → I → Px h w → J) (x : J → ℝ)
    (hφ : ∀ i c j, HasDerivAt φ (φ' i c j) (x (e i c j))) :
    HasDir (fun y => pair p (conv2d θ (fun i c j => φ (y (e i c j))))) x
      (fun v => pair (fun i c j => φ' i c j * convT θ p i c j) (fun i c j => v (e i c j))) := by
  have h1 := hasDir_pair (convT θ p) φ φ' e x hφ
  have h2 : HasDir (fun _ : J → ℝ => pair p (fun _ o _ => θ (o, none))) x (fun _ => 0) :=
    ⟨0, hasFDerivAt_const _ _, fun _ => rfl⟩
  refine (h1.add h2).congr (fun y => ?_) (fun v => ?_)
  · rw [conv2d_eq, pair_add, pair_conv_core]
  · rw [add_zero]

/-- Index of an entry of `q1`. -/
def j1 : ι → C → Px h w → ι × Imgs C E h w := fun i c d => (i, .inl (c, d))
/-- Index of an entry of `q2`. -/
def j2 : ι → E → Px h w → ι × Imgs C E h w := fun i c e => (i, .inr (c, e))

theorem grad_upDownConv {nl dnl : ℝ → ℝ} {q : ι × Imgs C E h w → ℝ}
    (hn : ∀ i c e, HasDerivAt nl (dnl (i2 q i c e)) (i2 q i c e)) (p : ι × Imgs C E h w → ℝ) (θ : ConvPar C E → ℝ) :
    HasGrad (fun q' => ∑ k, p k * upDownConv nl θ q' k) (fun k => - upDownConvCostate dnl θ q p k) q := by
  refine HasDir.hasGrad ?_
  have a := hasDir_conv (i1 p) (fun r => θ (.inl r)) nl (fun i c e => dnl (i2 q i c e)) j2 q hn
  have b := hasDir_conv (i2 p) (fun r => θ (.inr r)) (fun y => y) (fun _ _ _ => 1) j1 q (fun _ _ _ => id_deriv _)
  refine (a.add b).congr (fun y => ?_) (fun v => ?_)
  · unfold upDownConv
    rw [sum_joinI]
    rfl
  · change ∑ k, (fun k => - upDownConvCostate dnl θ q p k) k * v k = _
    unfold upDownConvCostate
    rw [neg_joinI, sum_joinI_left, add_comm]
    congr 1
    · congr 1
      funext i c e
      simp
    · congr 1
      funext i c d
      simp

theorem differentiableAt_at0 {x : (J → ℝ) → Px h w → ℝ} {q : J → ℝ} (hx : ∀ z, DifferentiableAt ℝ (fun y => x y z) q) (a b : ℤ) :
    DifferentiableAt ℝ (fun y => at0 (x y) a b) q := by
  unfold at0
  by_cases hp : (0 ≤ a ∧ a < h) ∧ (0 ≤ b ∧ b < w)
  · simp only [dif_pos hp]
    exact hx _
  · simp only [dif_neg hp]
    exact differentiableAt_const _

theorem differentiableAt_conv2d (θ : Kernel O I → ℝ) {x : (J → ℝ) → T3 ι I (Px h w)} {q : J → ℝ}
    (hx : ∀ i c j, DifferentiableAt ℝ (fun y => x y i c j) q) (i : ι) (o : O) (z : Px h w) :
    DifferentiableAt ℝ (fun y => conv2d θ (x y) i o z) q := by
  unfold conv2d
  refine DifferentiableAt.add_const _ (DifferentiableAt.fun_sum fun c _ => DifferentiableAt.fun_sum fun u _ =>
    DifferentiableAt.fun_sum fun v _ => ?_)
  exact (differentiableAt_at0 (fun z => hx i c z) _ _).mul_const _

theorem differentiableAt_divC {f : (J → ℝ) → ℝ} {q : J → ℝ} (hf : DifferentiableAt ℝ f q) (c : ℝ) :
    DifferentiableAt ℝ (fun y => f y / c) q := by
  simp only [div_eq_mul_inv]
  exact hf.mul_const _

theorem differentiableAt_groupNorm {ε : ℝ} (hε : 0 < ε) {x : (J → ℝ) → T3 ι I (Px h w)} {q : J → ℝ}
    (hx : ∀ i c j, DifferentiableAt ℝ (fun y => x y i c j) q) (i : ι) (o : I) (z : Px h w) :
    DifferentiableAt ℝ (fun y => groupNorm ε (x y) i o z) q := by
  have hm : DifferentiableAt ℝ (fun y => (∑ z, x y i o z) / ((h : ℝ) * w)) q :=
    differentiableAt_divC (DifferentiableAt.fun_sum fun z _ => hx i o z) _
  have hs : DifferentiableAt ℝ (fun y => (∑ z, (x y i o z - (∑ z, x y i o z) / ((h : ℝ) * w)) ^ 2) / ((h : ℝ) * w) + ε) q :=
    (differentiableAt_divC (DifferentiableAt.fun_sum fun z _ => ((hx i o z).sub hm).pow 2) _).add_const _
  have hpos : 0 < (∑ z, (x q i o z - (∑ z, x q i o z) / ((h : ℝ) * w)) ^ 2) / ((h : ℝ) * w) + ε := by
    have : 0 ≤ (∑ z, (x q i o z - (∑ z, x q i o z) / ((h : ℝ) * w)) ^ 2) / ((h : ℝ) * w) :=
      div_nonneg (Finset.sum_nonneg fun _ _ => sq_nonneg _) (by positivity)
    linarith
  have hq := hs.sqrt hpos.ne'
  have hx' := (hx i o z).sub hm
  have hd := hx'.mul (hq.inv (Real.sqrt_pos.2 hpos).ne')
  refine hd.congr_of_eventuallyEq (Filter.Eventually.of_forall fun y => ?_)
  simp [groupNorm, div_eq_mul_inv]

theorem diff_upDownConv {nl : ℝ → ℝ} {q : ι × Imgs C E h w → ℝ} (hn : ∀ i c e, DifferentiableAt ℝ nl (i2 q i c e))
    (θ : ConvPar C E → ℝ) (k : ι × Imgs C E h w) : DifferentiableAt ℝ (fun q' => upDownConv nl θ q' k) q := by
  rcases k with ⟨i, ⟨c, d⟩ | ⟨c, e⟩⟩
  · exact differentiableAt_conv2d (x := fun y => map nl (i2 y)) (fun r => θ (.inl r)) (fun i c e => differentiableAt_nl (hn i c e)) i c d
  · exact differentiableAt_conv2d (x := fun y => i1 y) (fun r => θ (.inr r)) (fun i c d => differentiableAt_apply (j1 i c d) q) i c e

theorem diff_convBatch {nl : ℝ → ℝ} {ε : ℝ} (hε : 0 < ε) {q : ι × Imgs C C h w → ℝ} (hn : ∀ i c e, DifferentiableAt ℝ nl (i2 q i c e))
    (θ : ConvPar C C → ℝ) (k : ι × Imgs C C h w) : DifferentiableAt ℝ (fun q' => convBatch nl ε θ q' k) q := by
  rcases k with ⟨i, ⟨c, d⟩ | ⟨c, e⟩⟩
  · exact differentiableAt_conv2d (x := fun y => map nl (i2 y)) (fun r => θ (.inl r)) (fun i c e => differentiableAt_nl (hn i c e)) i c d
  · exact differentiableAt_conv2d (x := fun y => groupNorm ε (i1 y)) (fun r => θ (.inr r))
      (fun i c d => differentiableAt_groupNorm hε (x := fun y => i1 y) (fun i c d => differentiableAt_apply (j1 i c d) q) i c d) i c e

/-! ## The derivative of the normalisation -/

theorem HasDir.of_lines {J : Type} [Fintype J] {F : (J → ℝ) → ℝ} {x : J → ℝ} {d : (J → ℝ) → ℝ} (hF : DifferentiableAt ℝ F x)
    (hd : ∀ v, HasDerivAt (fun t : ℝ => F (x + t • v)) (d v) 0) : HasDir F x d := by
  refine ⟨fderiv ℝ F x, hF.hasFDerivAt, fun v => ?_⟩
  have h1 : HasDerivAt (fun t : ℝ => x + t • v) v 0 := by
    simpa using ((hasDerivAt_id (0 : ℝ)).smul_const v).const_add x
  have h2 : HasFDerivAt F (fderiv ℝ F x) (x + (0 : ℝ) • v) := by simpa using hF.hasFDerivAt
  exact (h2.comp_hasDerivAt (0 : ℝ) h1).unique (hd v)

theorem deriv_groupNorm {ε : ℝ} (hε : 0 < ε) (a b : T3 ι I (Px h w)) (i : ι) (c : I) (z : Px h w) :
    HasDerivAt (fun t : ℝ => groupNorm ε (fun i c y => a i c y + t * b i c y) i c z) (groupNormT ε a b i c z) 0 := by
  set n : ℝ := (h : ℝ) * w with hn
  have hn0 : n ≠ 0 := by
    have h1 : (0 : ℝ) < h := by exact_mod_cast z.1.pos
    have h2 : (0 : ℝ) < w := by exact_mod_cast z.2.pos
    positivity
  have hl : ∀ y, HasDerivAt (fun t : ℝ => a i c y + t * b i c y) (b i c y) 0 := fun y => by
    simpa using ((hasDerivAt_id (0 : ℝ)).mul_const (b i c y)).const_add (a i c y)
  have hm : HasDerivAt (fun t : ℝ => (∑ y, (a i c y + t * b i c y)) / n) (mean (b i c)) 0 := by
    have := (HasDerivAt.fun_sum (u := Finset.univ) fun y _ => hl y).div_const n
    exact this
  have hv : HasDerivAt (fun t : ℝ => (∑ y, (a i c y + t * b i c y - (∑ y, (a i c y + t * b i c y)) / n) ^ 2) / n + ε)
      (2 * mean (fun y => (a i c y - mean (a i c)) * (b i c y - mean (b i c)))) 0 := by
    have h1 := ((HasDerivAt.fun_sum (u := Finset.univ) fun y _ => ((hl y).sub hm).pow 2).div_const n).add_const ε
    refine h1.congr_deriv ?_
    simp only [mean, ← hn]
    rw [← mul_div_assoc, Finset.mul_sum]
    congr 1
    refine Finset.sum_congr rfl fun y _ => ?_
    simp
    ring
  set S : ℝ := mean (fun y => (a i c y - mean (a i c)) ^ 2) + ε with hS
  have hS0 : (∑ y, (a i c y + 0 * b i c y - (∑ y, (a i c y + 0 * b i c y)) / n) ^ 2) / n + ε = S := by
    simp only [hS, mean, ← hn, zero_mul, add_zero]
  have hSp : 0 < S := by
    have : 0 ≤ mean (fun y => (a i c y - mean (a i c)) ^ 2) := by
      unfold mean
      positivity
    linarith
  have hq : Real.sqrt S ≠ 0 := (Real.sqrt_pos.2 hSp).ne'
  have hr := hv.sqrt (by rw [hS0]; exact hSp.ne')
  have hN := ((hl z).sub hm).div hr (by rw [hS0]; exact hq)
  refine (show HasDerivAt (fun t : ℝ => groupNorm ε (fun i c y => a i c y + t * b i c y) i c z) _ 0 from hN).congr_deriv ?_
  simp only [Pi.sub_apply]
  rw [hS0]
  have hz : (a i c z + 0 * b i c z - (∑ y, (a i c y + 0 * b i c y)) / n) = a i c z - mean (a i c) := by
    simp only [mean, ← hn, zero_mul, add_zero]
  rw [hz]
  have hg : ∀ y, groupNorm ε a i c y = (a i c y - mean (a i c)) / Real.sqrt S := fun y => rfl
  have hc : ∑ y : Px h w, (a i c y - mean (a i c)) = 0 := by
    rw [Finset.sum_sub_distrib, Finset.sum_const]
    simp only [mean, Finset.card_univ, Fintype.card_prod, Fintype.card_fin, nsmul_eq_mul]
    push_cast
    rw [← hn]
    field_simp
    ring
  have hM : mean (fun y => (a i c y - mean (a i c)) * (b i c y - mean (b i c))) = mean (fun y => b i c y * groupNorm ε a i c y) * Real.sqrt S := by
    unfold mean
    rw [← hn, div_mul_eq_mul_div, Finset.sum_mul]
    congr 1
    have : ∀ y, b i c y * groupNorm ε a i c y * Real.sqrt S = (a i c y - mean (a i c)) * b i c y := fun y => by
      rw [hg]
      field_simp
    simp only [this, mul_sub, Finset.sum_sub_distrib]
    rw [← Finset.sum_mul]
    simp only [mean, ← hn] at hc ⊢
    rw [hc]
    ring
  rw [hM]
  unfold groupNormT
  rw [← hS, hg]
  field_simp

theorem groupNormT_adjoint {ι I : Type} [Fintype ι] [Fintype I] {h w : Nat} (ε : ℝ) (x g v : T3 ι I (Px h w)) :
    pair g (groupNormT ε x v) = pair (groupNormT ε x g) v := by
  unfold pair
  refine Finset.sum_congr rfl fun i _ => Finset.sum_congr rfl fun c _ => ?_
  have key : ∀ u g : Px h w → ℝ, ∀ y : Px h w → ℝ, ∀ S : ℝ,
      ∑ z, g z * ((u z - mean u - y z * mean (fun t => u t * y t)) / S) =
        ((∑ z, g z * u z) - (∑ z, g z) * (∑ z, u z) / ((h : ℝ) * w) - (∑ z, g z * y z) * (∑ z, u z * y z) / ((h : ℝ) * w)) / S := by
    intro u g y S
    unfold mean
    generalize (∑ z, u z) = A
    generalize (∑ z, u z * y z) = B
    rw [Finset.sum_mul, Finset.sum_mul, Finset.sum_div, Finset.sum_div, ← Finset.sum_sub_distrib, ← Finset.sum_sub_distrib, Finset.sum_div]
    refine Finset.sum_congr rfl fun z _ => ?_
    ring
  have h1 := key (v i c) (g i c) (fun z => groupNorm ε x i c z) (Real.sqrt (mean (fun y => (x i c y - mean (x i c)) ^ 2) + ε))
  have h2 := key (g i c) (v i c) (fun z => groupNorm ε x i c z) (Real.sqrt (mean (fun y => (x i c y - mean (x i c)) ^ 2) + ε))
  have e1 : ∑ z, g i c z * groupNormT ε x v i c z = _ := h1
  have e2 : ∑ z, groupNormT ε x g i c z * v i c z = _ := (Finset.sum_congr rfl fun z _ => mul_comm _ _).trans h2
  rw [e1, e2]
  congr 2
  · congr 1
    · exact Finset.sum_congr rfl fun z _ => mul_comm _ _
    · rw [mul_comm]
  · rw [mul_comm]

theorem grad_convBatch {nl dnl : ℝ → ℝ} {ε : ℝ} (hε : 0 < ε) {q : ι × Imgs C C h w → ℝ}
    (hn : ∀ i c e, HasDerivAt nl (dnl (i2 q i c e)) (i2 q i c e)) (p : ι × Imgs C C h w → ℝ) (θ : ConvPar C C → ℝ) :
    HasGrad (fun q' => ∑ k, p k * convBatch nl ε θ q' k) (fun k => - convBatchCostate dnl ε θ q p k) q := by
  refine HasDir.hasGrad ?_
  have a := hasDir_conv (i1 p) (fun r => θ (.inl r)) nl (fun i c e => dnl (i2 q i c e)) j2 q hn
  have b0 : HasDir (fun y => pair (convT (fun r => θ (.inr r)) (i2 p)) (groupNorm ε (i1 y))) q
      (fun v => pair (convT (fun r => θ (.inr r)) (i2 p)) (groupNormT ε (i1 q) (i1 v))) := by
    unfold pair
    refine hasDir_sum fun i => hasDir_sum fun c => hasDir_sum fun z => ?_
    refine HasDir.of_lines ((differentiableAt_groupNorm hε (x := fun y => i1 y)
      (fun i c d => differentiableAt_apply (j1 i c d) q) i c z).const_mul _) fun v => ?_
    exact (deriv_groupNorm hε (i1 q) (i1 v) i c z).const_mul _
  have h2 : HasDir (fun _ : ι × Imgs C C h w → ℝ => pair (i2 p) (fun _ o _ => θ (.inr (o, none)))) q (fun _ => 0) :=
    ⟨0, hasFDerivAt_const _ _, fun _ => rfl⟩
  refine (a.add (b0.add h2)).congr (fun y => ?_) (fun v => ?_)
  · unfold convBatch
    rw [sum_joinI, conv2d_eq (fun r => θ (.inr r)), pair_add]
    exact congrArg₂ (· + ·) rfl (congrArg₂ (· + ·) (pair_conv_core (i2 p) (fun r => θ (.inr r)) _) rfl)
  · change ∑ k, (fun k => - convBatchCostate dnl ε θ q p k) k * v k = _
    unfold convBatchCostate
    rw [neg_joinI, sum_joinI_left, add_comm, add_zero, groupNormT_adjoint]
    congr 1
    · congr 1
      funext i c e
      simp
    · congr 1
      funext i c d
      simp

/-! ## Row-wise -/

theorem rowwise_upDownConv (nl : ℝ → ℝ) : Rowwise (K := Imgs C E h w) fun _ => upDownConv nl := by
  intro κ κ' g θ x
  funext k
  rcases k with ⟨i, ⟨c, d⟩ | ⟨c, d⟩⟩ <;> rfl

theorem rowwise_convBatch (nl : ℝ → ℝ) (ε : ℝ) : Rowwise (K := Imgs C C h w) fun _ => convBatch nl ε := by
  intro κ κ' g θ x
  funext k
  rcases k with ⟨i, ⟨c, d⟩ | ⟨c, d⟩⟩ <;> rfl

end Verif.Conv
