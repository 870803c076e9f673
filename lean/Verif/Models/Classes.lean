import Verif.Models.Lemmas
import Mathlib.Tactic.Abel

/-!
# The model classes: `∑ costate * rhs` as a function of the parameters and its derivative with respect to the state
-/

set_option linter.unusedSectionVars false

namespace Verif.Models
open Verif.Shooting

variable {ι C D E : Type} [Fintype ι] [Fintype C] [Fintype D] [Fintype E]

theorem neg_join (x : T3 ι C D) (y : T3 ι C E) : (fun k => - join x y k) = join (-x) (-y) := by
  funext k
  rcases k with ⟨i, ⟨c, d⟩ | ⟨c, e⟩⟩ <;> rfl

theorem neg_join3 (x : T3 ι C D) (y : T3 ι C E) (z : T3 ι C D) : (fun k => - join3 x y z k) = join3 (-x) (-y) (-z) := by
  funext k
  rcases k with ⟨i, ⟨c, d⟩ | ⟨c, e⟩ | ⟨c, d⟩⟩ <;> rfl

theorem neg_single (x : T3 ι C D) : (fun k => - single x k) = single (-x) := by
  funext k
  rfl

theorem id_deriv (x : ℝ) : HasDerivAt (fun y : ℝ => y) 1 x := hasDerivAt_id' x

/-- Index of an entry of `q1`. -/
def e1 : ι → C → D → ι × Two C D E := fun i c d => (i, .inl (c, d))
/-- Index of an entry of `q2`. -/
def e2 : ι → C → E → ι × Two C D E := fun i c e => (i, .inr (c, e))

/-! ## UpDown -/

theorem pairing_upDown (nl : ℝ → ℝ) (q p : ι × Two C D E → ℝ) (θ : UpDownPar D E → ℝ) :
    ∑ k, p k * upDown nl θ q k =
      ∑ r, Sum.elim (gradLayer (q1 p) (map nl (q2 q))) (gradLayer (q2 p) (q1 q)) r * θ r := by
  unfold upDown
  rw [sum_join, pair_linear, pair_linear, Fintype.sum_sum_type]
  rfl

theorem grad_upDown {nl dnl : ℝ → ℝ} {q : ι × Two C D E → ℝ}
    (h : ∀ i c e, HasDerivAt nl (dnl (q2 q i c e)) (q2 q i c e)) (p : ι × Two C D E → ℝ) (θ : UpDownPar D E → ℝ) :
    HasGrad (fun q' => ∑ k, p k * upDown nl θ q' k) (fun k => - upDownCostate dnl θ q p k) q := by
  refine HasDir.hasGrad ?_
  have a := hasDir_layer (q1 p) (fun r => θ (.inl r)) nl (fun i c e => dnl (q2 q i c e)) e2 q h
  have b := hasDir_layer (q2 p) (fun r => θ (.inr r)) (fun y => y) (fun _ _ _ => 1) e1 q (fun _ _ _ => id_deriv _)
  refine (a.add b).congr (fun y => ?_) (fun v => ?_)
  · unfold upDown
    rw [sum_join]
    rfl
  · change ∑ k, (fun k => - upDownCostate dnl θ q p k) k * v k = _
    unfold upDownCostate
    rw [neg_join, sum_join_left, add_comm]
    congr 1
    · congr 1
      funext i c e
      simp
    · congr 1
      funext i c d
      simp

theorem diff_upDown {nl : ℝ → ℝ} {q : ι × Two C D E → ℝ} (h : ∀ i c e, DifferentiableAt ℝ nl (q2 q i c e))
    (θ : UpDownPar D E → ℝ) (k : ι × Two C D E) : DifferentiableAt ℝ (fun q' => upDown nl θ q' k) q := by
  rcases k with ⟨i, ⟨c, d⟩ | ⟨c, e⟩⟩
  · exact differentiableAt_linear (x := fun y => map nl (q2 y)) (fun r => θ (.inl r)) (fun i c e => differentiableAt_nl (h i c e)) i c d
  · exact differentiableAt_linear (x := fun y => q1 y) (fun r => θ (.inr r)) (fun i c d => differentiableAt_apply (e1 i c d) q) i c e

theorem params_upDown [Unique C] (nl : ℝ → ℝ) (q p : ι × Two C D E → ℝ) :
    upDownParams nl q p = fun r =>
      Sum.elim (gradLayer (q1 p) (map nl (q2 q))) (gradLayer (q2 p) (q1 q)) r / Fintype.card ι := by
  unfold upDownParams
  dsimp only
  rw [layer_eq (q1 p) (map nl (q2 q)) (t (mean0 (bmm (map nl (transpose12 (q2 q))) (q1 p)))) (mean0 (q1 p)),
    layer_eq (q2 p) (q1 q) (mean0 (bmm (transpose12 (q2 p)) (q1 q))) (t (mean0 (transpose12 (q2 p))))]
  · funext r
    rcases r with r | r <;> rfl
  · intro o j
    simp [mean0, bmm, transpose12]
  · intro c o
    simp [mean0, transpose12, t]
  · intro o j
    simp [mean0, bmm, transpose12, t, map, mul_comm]
  · intro c o
    simp [mean0]

/-! ## Universal -/

theorem pairing_universal (nl : ℝ → ℝ) (q p : ι × Two C D E → ℝ) (θ : UniversalPar D E → ℝ) :
    ∑ k, p k * universal nl θ q k =
      ∑ r, Sum.elim (gradLayer (q1 p) (map nl (q2 q))) (Sum.elim (gradLayer (q2 p) (q1 q)) (gradNB (q2 p) (map nl (q2 q)))) r * θ r := by
  unfold universal
  rw [sum_join, pair_add, pair_linear, pair_linear, pair_linearNB, Fintype.sum_sum_type, Fintype.sum_sum_type]
  rfl

theorem grad_universal {nl dnl : ℝ → ℝ} {q : ι × Two C D E → ℝ}
    (h : ∀ i c e, HasDerivAt nl (dnl (q2 q i c e)) (q2 q i c e)) (p : ι × Two C D E → ℝ) (θ : UniversalPar D E → ℝ) :
    HasGrad (fun q' => ∑ k, p k * universal nl θ q' k) (fun k => - universalCostate dnl θ q p k) q := by
  refine HasDir.hasGrad ?_
  have a := hasDir_layer (q1 p) (fun r => θ (.inl r)) nl (fun i c e => dnl (q2 q i c e)) e2 q h
  have b := hasDir_layer (q2 p) (fun r => θ (.inr (.inl r))) (fun y => y) (fun _ _ _ => 1) e1 q (fun _ _ _ => id_deriv _)
  have d := hasDir_layerNB (q2 p) (fun r => θ (.inr (.inr r))) nl (fun i c e => dnl (q2 q i c e)) e2 q h
  refine (a.add (b.add d)).congr (fun y => ?_) (fun v => ?_)
  · unfold universal
    rw [sum_join, pair_add]
    rfl
  · change ∑ k, (fun k => - universalCostate dnl θ q p k) k * v k = _
    unfold universalCostate
    rw [neg_join, sum_join_left, add_left_comm]
    congr 1
    · congr 1
      funext i c d
      simp
    · change _ = pair _ (q2 v) + pair _ (q2 v)
      rw [← pair_add_left]
      congr 1
      funext i c e
      simp
      ring

theorem diff_universal {nl : ℝ → ℝ} {q : ι × Two C D E → ℝ} (h : ∀ i c e, DifferentiableAt ℝ nl (q2 q i c e))
    (θ : UniversalPar D E → ℝ) (k : ι × Two C D E) : DifferentiableAt ℝ (fun q' => universal nl θ q' k) q := by
  rcases k with ⟨i, ⟨c, d⟩ | ⟨c, e⟩⟩
  · exact differentiableAt_linear (x := fun y => map nl (q2 y)) (fun r => θ (.inl r)) (fun i c e => differentiableAt_nl (h i c e)) i c d
  · exact (differentiableAt_linear (x := fun y => q1 y) (fun r => θ (.inr (.inl r))) (fun i c d => differentiableAt_apply (e1 i c d) q) i c e).add
      (differentiableAt_linearNB (x := fun y => map nl (q2 y)) (fun r => θ (.inr (.inr r))) (fun i c e => differentiableAt_nl (h i c e)) i c e)

theorem params_universal [Unique C] (nl : ℝ → ℝ) (q p : ι × Two C D E → ℝ) :
    universalParams nl q p = fun r =>
      Sum.elim (gradLayer (q1 p) (map nl (q2 q))) (Sum.elim (gradLayer (q2 p) (q1 q)) (gradNB (q2 p) (map nl (q2 q)))) r / Fintype.card ι := by
  unfold universalParams
  dsimp only
  rw [layer_eq (q1 p) (map nl (q2 q)) (t (mean0 (bmm (map nl (transpose12 (q2 q))) (q1 p)))) (mean0 (q1 p)),
    layer_eq (q2 p) (q1 q) (mean0 (bmm (transpose12 (q2 p)) (q1 q))) (t (mean0 (transpose12 (q2 p)))),
    layerNB_eq (q2 p) (map nl (q2 q)) (t (mean0 (bmm (map nl (transpose12 (q2 q))) (transpose12 (transpose12 (q2 p))))))]
  · funext r
    rcases r with r | r | r <;> rfl
  · intro o j
    simp [mean0, bmm, transpose12, t, map, mul_comm]
  · intro o j
    simp [mean0, bmm, transpose12]
  · intro c o
    simp [mean0, transpose12, t]
  · intro o j
    simp [mean0, bmm, transpose12, t, map, mul_comm]
  · intro c o
    simp [mean0]

/-! ## Periodic -/

theorem pairing_periodic (nl : ℝ → ℝ) (q p : ι × Two C D E → ℝ) (θ : PeriodicPar D E → ℝ) :
    ∑ k, p k * periodic nl θ q k =
      ∑ r, Sum.elim (gradLayer (q1 p) (map nl (q2 q))) (Sum.elim (gradLayer (q2 p) (q1 q)) (gradNB (q1 p) (q1 q))) r * θ r := by
  unfold periodic
  rw [sum_join, pair_add, pair_linear, pair_linear, pair_linearNB, Fintype.sum_sum_type, Fintype.sum_sum_type, add_right_comm]
  exact add_assoc _ _ _

theorem grad_periodic {nl dnl : ℝ → ℝ} {q : ι × Two C D E → ℝ}
    (h : ∀ i c e, HasDerivAt nl (dnl (q2 q i c e)) (q2 q i c e)) (p : ι × Two C D E → ℝ) (θ : PeriodicPar D E → ℝ) :
    HasGrad (fun q' => ∑ k, p k * periodic nl θ q' k) (fun k => - periodicCostate dnl θ q p k) q := by
  refine HasDir.hasGrad ?_
  have a := hasDir_layer (q1 p) (fun r => θ (.inl r)) nl (fun i c e => dnl (q2 q i c e)) e2 q h
  have b := hasDir_layerNB (q1 p) (fun r => θ (.inr (.inr r))) (fun y => y) (fun _ _ _ => 1) e1 q (fun _ _ _ => id_deriv _)
  have d := hasDir_layer (q2 p) (fun r => θ (.inr (.inl r))) (fun y => y) (fun _ _ _ => 1) e1 q (fun _ _ _ => id_deriv _)
  refine ((a.add b).add d).congr (fun y => ?_) (fun v => ?_)
  · unfold periodic
    rw [sum_join, pair_add]
    rfl
  · change ∑ k, (fun k => - periodicCostate dnl θ q p k) k * v k = _
    unfold periodicCostate
    rw [neg_join, sum_join_left, add_assoc, add_comm]
    congr 1
    · congr 1
      funext i c e
      simp
    · change _ = pair _ (q1 v) + pair _ (q1 v)
      rw [← pair_add_left]
      congr 1
      funext i c d
      simp

theorem diff_periodic {nl : ℝ → ℝ} {q : ι × Two C D E → ℝ} (h : ∀ i c e, DifferentiableAt ℝ nl (q2 q i c e))
    (θ : PeriodicPar D E → ℝ) (k : ι × Two C D E) : DifferentiableAt ℝ (fun q' => periodic nl θ q' k) q := by
  rcases k with ⟨i, ⟨c, d⟩ | ⟨c, e⟩⟩
  · exact (differentiableAt_linear (x := fun y => map nl (q2 y)) (fun r => θ (.inl r)) (fun i c e => differentiableAt_nl (h i c e)) i c d).add
      (differentiableAt_linearNB (x := fun y => q1 y) (fun r => θ (.inr (.inr r))) (fun i c d => differentiableAt_apply (e1 i c d) q) i c d)
  · exact differentiableAt_linear (x := fun y => q1 y) (fun r => θ (.inr (.inl r))) (fun i c d => differentiableAt_apply (e1 i c d) q) i c e

theorem params_periodic [Unique C] (nl : ℝ → ℝ) (q p : ι × Two C D E → ℝ) :
    periodicParams nl q p = fun r =>
      Sum.elim (gradLayer (q1 p) (map nl (q2 q))) (Sum.elim (gradLayer (q2 p) (q1 q)) (gradNB (q1 p) (q1 q))) r / Fintype.card ι := by
  unfold periodicParams
  dsimp only
  rw [layer_eq (q1 p) (map nl (q2 q)) (t (mean0 (bmm (map nl (transpose12 (q2 q))) (q1 p)))) (mean0 (q1 p)),
    layer_eq (q2 p) (q1 q) (mean0 (bmm (transpose12 (q2 p)) (q1 q))) (t (mean0 (transpose12 (q2 p)))),
    layerNB_eq (q1 p) (q1 q) (t (mean0 (bmm (transpose12 (q1 q)) (q1 p))))]
  · funext r
    rcases r with r | r | r <;> rfl
  · intro o j
    simp [mean0, bmm, transpose12, t, mul_comm]
  · intro o j
    simp [mean0, bmm, transpose12]
  · intro c o
    simp [mean0, transpose12, t]
  · intro o j
    simp [mean0, bmm, transpose12, t, map, mul_comm]
  · intro c o
    simp [mean0]

/-! ## General -/

/-- Coefficients of the parameters of the general model. -/
def gradGeneral (nl : ℝ → ℝ) (q p : ι × Two C D E → ℝ) : GeneralPar D E → ℝ :=
  Sum.elim
    (Sum.elim (gradLayer (q1 p) (map nl (q2 q))) (Sum.elim (gradNB (q1 p) (q1 q))
      (Sum.elim (gradNB (q1 p) (map nl (q1 q))) (gradNB (q1 p) (q2 q)))))
    (Sum.elim (gradLayer (q2 p) (q1 q)) (Sum.elim (gradNB (q2 p) (q2 q))
      (Sum.elim (gradNB (q2 p) (map nl (q2 q))) (gradNB (q2 p) (map nl (q1 q))))))

theorem pairing_general (nl : ℝ → ℝ) (damp : ℝ) (q p : ι × Two C D E → ℝ) (θ : GeneralPar D E → ℝ) :
    ∑ k, p k * general nl damp θ q k =
      - pair (q2 p) (fun i c e => damp * q2 q i c e) + ∑ r, gradGeneral nl q p r * θ r := by
  unfold general gradGeneral
  simp only [sum_join, pair_add, pair_sub, pair_linear, pair_linearNB, Fintype.sum_sum_type, Sum.elim_inl, Sum.elim_inr,
    l11, l12, l13, l14, l21, l22, l23, l24]
  ring

theorem grad_general {nl dnl : ℝ → ℝ} {q : ι × Two C D E → ℝ}
    (h1 : ∀ i c d, HasDerivAt nl (dnl (q1 q i c d)) (q1 q i c d))
    (h2 : ∀ i c e, HasDerivAt nl (dnl (q2 q i c e)) (q2 q i c e)) (p : ι × Two C D E → ℝ) (θ : GeneralPar D E → ℝ)
    (damp : ℝ) :
    HasGrad (fun q' => ∑ k, p k * general nl damp θ q' k)
      (fun k => - (generalCostate dnl θ q p k + join 0 (fun i c e => damp * q2 p i c e) k)) q := by
  refine HasDir.hasGrad ?_
  have a1 := hasDir_layer (q1 p) (l11 θ) nl (fun i c e => dnl (q2 q i c e)) e2 q h2
  have a2 := hasDir_layerNB (q1 p) (l12 θ) (fun y => y) (fun _ _ _ => 1) e1 q (fun _ _ _ => id_deriv _)
  have a3 := hasDir_layerNB (q1 p) (l13 θ) nl (fun i c d => dnl (q1 q i c d)) e1 q h1
  have a4 := hasDir_layerNB (q1 p) (l14 θ) (fun y => y) (fun _ _ _ => 1) e2 q (fun _ _ _ => id_deriv _)
  have b1 := hasDir_layer (q2 p) (l21 θ) (fun y => y) (fun _ _ _ => 1) e1 q (fun _ _ _ => id_deriv _)
  have b2 := hasDir_layerNB (q2 p) (l22 θ) (fun y => y) (fun _ _ _ => 1) e2 q (fun _ _ _ => id_deriv _)
  have b3 := hasDir_layerNB (q2 p) (l23 θ) nl (fun i c e => dnl (q2 q i c e)) e2 q h2
  have b4 := hasDir_layerNB (q2 p) (l24 θ) nl (fun i c d => dnl (q1 q i c d)) e1 q h1
  have b5 := hasDir_pair (q2 p) (fun y => damp * y) (fun _ _ _ => damp) e2 q
    (fun i c e => by simpa using (id_deriv (q (e2 i c e))).const_mul damp)
  refine ((((a1.add a2).add a3).add a4).add ((((b1.add b2).add b3).add b4).sub b5)).congr (fun y => ?_) (fun v => ?_)
  · unfold general
    rw [sum_join]
    simp only [pair_add, pair_sub]
    rfl
  · have e : (fun k => - (generalCostate dnl θ q p k + join 0 (fun i c e => damp * q2 p i c e) k)) =
        join (fun i c d => 1 * matmul (q1 p) (weightNB (l12 θ)) i c d + dnl (q1 q i c d) * matmul (q1 p) (weightNB (l13 θ)) i c d
            + 1 * matmul (q2 p) (weightOf (l21 θ)) i c d + dnl (q1 q i c d) * matmul (q2 p) (weightNB (l24 θ)) i c d)
          (fun i c e => dnl (q2 q i c e) * matmul (q1 p) (weightOf (l11 θ)) i c e + 1 * matmul (q1 p) (weightNB (l14 θ)) i c e
            + 1 * matmul (q2 p) (weightNB (l22 θ)) i c e + dnl (q2 q i c e) * matmul (q2 p) (weightNB (l23 θ)) i c e
            + - (damp * q2 p i c e)) := by
      funext k
      rcases k with ⟨i, ⟨c, d⟩ | ⟨c, e⟩⟩
      · simp only [generalCostate, join, Pi.zero_apply]
        ring
      · simp only [generalCostate, join]
        ring
    change ∑ k, (fun k => - (generalCostate dnl θ q p k + join 0 (fun i c e => damp * q2 p i c e) k)) k * v k = _
    rw [e, sum_join_left]
    change pair ((fun i c d => 1 * matmul (q1 p) (weightNB (l12 θ)) i c d)
        + (fun i c d => dnl (q1 q i c d) * matmul (q1 p) (weightNB (l13 θ)) i c d)
        + (fun i c d => 1 * matmul (q2 p) (weightOf (l21 θ)) i c d)
        + (fun i c d => dnl (q1 q i c d) * matmul (q2 p) (weightNB (l24 θ)) i c d)) (q1 v)
      + pair ((fun i c e => dnl (q2 q i c e) * matmul (q1 p) (weightOf (l11 θ)) i c e)
        + (fun i c e => 1 * matmul (q1 p) (weightNB (l14 θ)) i c e)
        + (fun i c e => 1 * matmul (q2 p) (weightNB (l22 θ)) i c e)
        + (fun i c e => dnl (q2 q i c e) * matmul (q2 p) (weightNB (l23 θ)) i c e)
        + (fun i c e => - (damp * q2 p i c e))) (q2 v) = _
    rw [pair_add_left, pair_add_left, pair_add_left, pair_add_left, pair_add_left, pair_add_left, pair_add_left]
    have hn : pair (fun i c e => - (damp * q2 p i c e)) (q2 v) = - pair (fun i c e => damp * q2 p i c e) (q2 v) := by
      simp [pair]
    rw [hn]
    change _ = pair _ (q2 v) + pair _ (q1 v) + pair _ (q1 v) + pair _ (q2 v)
      + (pair _ (q1 v) + pair _ (q2 v) + pair _ (q2 v) + pair _ (q1 v) - pair _ (q2 v))
    ring

theorem diff_general {nl : ℝ → ℝ} {q : ι × Two C D E → ℝ} (h1 : ∀ i c d, DifferentiableAt ℝ nl (q1 q i c d))
    (h2 : ∀ i c e, DifferentiableAt ℝ nl (q2 q i c e)) (damp : ℝ)
    (θ : GeneralPar D E → ℝ) (k : ι × Two C D E) : DifferentiableAt ℝ (fun q' => general nl damp θ q' k) q := by
  have n1 : ∀ i c d, DifferentiableAt ℝ (fun y : ι × Two C D E → ℝ => map nl (q1 y) i c d) q :=
    fun i c d => differentiableAt_nl (k := e1 i c d) (h1 i c d)
  have n2 : ∀ i c d, DifferentiableAt ℝ (fun y : ι × Two C D E → ℝ => map nl (q2 y) i c d) q :=
    fun i c d => differentiableAt_nl (k := e2 i c d) (h2 i c d)
  have m1 : ∀ i c d, DifferentiableAt ℝ (fun y : ι × Two C D E → ℝ => q1 y i c d) q :=
    fun i c d => differentiableAt_apply (e1 i c d) q
  have m2 : ∀ i c d, DifferentiableAt ℝ (fun y : ι × Two C D E → ℝ => q2 y i c d) q :=
    fun i c d => differentiableAt_apply (e2 i c d) q
  rcases k with ⟨i, ⟨c, d⟩ | ⟨c, e⟩⟩
  · exact (((differentiableAt_linear _ n2 i c d).add (differentiableAt_linearNB _ m1 i c d)).add
      (differentiableAt_linearNB _ n1 i c d)).add (differentiableAt_linearNB _ m2 i c d)
  · exact ((((differentiableAt_linear _ m1 i c e).add (differentiableAt_linearNB _ m2 i c e)).add
      (differentiableAt_linearNB _ n2 i c e)).add (differentiableAt_linearNB _ n1 i c e)).sub ((m2 i c e).const_mul damp)

theorem params_general [Unique C] (nl : ℝ → ℝ) (q p : ι × Two C D E → ℝ) :
    generalParams nl q p = fun r => gradGeneral nl q p r / Fintype.card ι := by
  unfold generalParams gradGeneral
  dsimp only
  rw [layer_eq (q1 p) (map nl (q2 q)) (t (mean0 (bmm (map nl (transpose12 (q2 q))) (q1 p)))) (mean0 (q1 p)),
    layerNB_eq (q1 p) (q1 q) (t (mean0 (bmm (transpose12 (q1 q)) (q1 p)))),
    layerNB_eq (q1 p) (map nl (q1 q)) (t (mean0 (bmm (map nl (transpose12 (q1 q))) (q1 p)))),
    layerNB_eq (q1 p) (q2 q) (t (mean0 (bmm (transpose12 (q2 q)) (q1 p)))),
    layer_eq (q2 p) (q1 q) (mean0 (bmm (transpose12 (q2 p)) (q1 q))) (mean0 (transpose12 (transpose12 (q2 p)))),
    layerNB_eq (q2 p) (q2 q) (mean0 (bmm (transpose12 (q2 p)) (q2 q))),
    layerNB_eq (q2 p) (map nl (q2 q)) (t (mean0 (bmm (map nl (transpose12 (q2 q))) (q2 p)))),
    layerNB_eq (q2 p) (map nl (q1 q)) (mean0 (bmm (transpose12 (q2 p)) (map nl (q1 q))))]
  · funext r
    rcases r with (r | r | r | r) | (r | r | r | r) <;> rfl
  all_goals
    intro o j
    simp [mean0, bmm, transpose12, t, map, mul_comm]

/-! ## Dampened UpDown (constant dampening of `q2`) -/

theorem pairing_dampenedQ2 (nl : ℝ → ℝ) (damp : ℝ) (q p : ι × Two C D E → ℝ) (θ : UpDownPar D E → ℝ) :
    ∑ k, p k * dampenedQ2 nl damp θ q k = - pair (q2 p) (fun i c e => damp * q2 q i c e) +
      ∑ r, Sum.elim (gradLayer (q1 p) (map nl (q2 q))) (gradLayer (q2 p) (q1 q)) r * θ r := by
  unfold dampenedQ2
  simp only [sum_join, pair_sub, pair_linear, Fintype.sum_sum_type, Sum.elim_inl, Sum.elim_inr]
  ring

theorem grad_dampenedQ2 {nl dnl : ℝ → ℝ} {q : ι × Two C D E → ℝ}
    (h : ∀ i c e, HasDerivAt nl (dnl (q2 q i c e)) (q2 q i c e)) (damp : ℝ) (p : ι × Two C D E → ℝ)
    (θ : UpDownPar D E → ℝ) :
    HasGrad (fun q' => ∑ k, p k * dampenedQ2 nl damp θ q' k)
      (fun k => - (upDownCostate dnl θ q p k + join 0 (fun i c e => damp * q2 p i c e) k)) q := by
  have h1 := grad_upDown h p θ
  have h2 : HasGrad (fun q' => pair (q2 p) (fun i c e => damp * q2 q' i c e)) (join 0 (fun i c e => damp * q2 p i c e)) q := by
    refine HasDir.hasGrad ?_
    have b5 := hasDir_pair (q2 p) (fun y => damp * y) (fun _ _ _ => damp) e2 q
      (fun i c e => by simpa using (id_deriv (q (e2 i c e))).const_mul damp)
    refine b5.congr (fun y => rfl) (fun v => ?_)
    rw [sum_join_left]
    have : pair (0 : T3 ι C D) (q1 v) = 0 := by simp [pair]
    rw [this, zero_add]
    rfl
  refine (h1.sub h2).congr (fun y => ?_) (fun k => by ring)
  unfold dampenedQ2 upDown
  rw [sum_join, sum_join, pair_sub]
  ring

theorem diff_dampenedQ2 {nl : ℝ → ℝ} {q : ι × Two C D E → ℝ} (h : ∀ i c e, DifferentiableAt ℝ nl (q2 q i c e)) (damp : ℝ)
    (θ : UpDownPar D E → ℝ) (k : ι × Two C D E) : DifferentiableAt ℝ (fun q' => dampenedQ2 nl damp θ q' k) q := by
  rcases k with ⟨i, ⟨c, d⟩ | ⟨c, e⟩⟩
  · exact differentiableAt_linear (x := fun y => map nl (q2 y)) (fun r => θ (.inl r)) (fun i c e => differentiableAt_nl (h i c e)) i c d
  · exact (differentiableAt_linear (x := fun y => q1 y) (fun r => θ (.inr r)) (fun i c d => differentiableAt_apply (e1 i c d) q) i c e).sub
      ((differentiableAt_apply (e2 i c e) q).const_mul damp)

/-! ## Simple -/

/-- Index of an entry of `q1` in the simple model. -/
def e0 : ι → C → D → ι × (C × D) := fun i c d => (i, (c, d))

theorem pairing_simple (nl : ℝ → ℝ) (q p : ι × (C × D) → ℝ) (θ : Layer D D → ℝ) :
    ∑ k, p k * simple nl θ q k = ∑ r, gradLayer (one p) (map nl (one q)) r * θ r := by
  unfold simple
  rw [sum_single, pair_linear]

theorem grad_simple {nl dnl : ℝ → ℝ} {q : ι × (C × D) → ℝ}
    (h : ∀ i c d, HasDerivAt nl (dnl (one q i c d)) (one q i c d)) (p : ι × (C × D) → ℝ) (θ : Layer D D → ℝ) :
    HasGrad (fun q' => ∑ k, p k * simple nl θ q' k) (fun k => - simpleCostate dnl θ q p k) q := by
  refine HasDir.hasGrad ?_
  have a := hasDir_layer (one p) θ nl (fun i c e => dnl (one q i c e)) e0 q h
  refine a.congr (fun y => ?_) (fun v => ?_)
  · unfold simple
    rw [sum_single]
    rfl
  · change ∑ k, (fun k => - simpleCostate dnl θ q p k) k * v k = _
    unfold simpleCostate
    rw [neg_single, sum_single_left]
    congr 1
    funext i c d
    simp

theorem diff_simple {nl : ℝ → ℝ} {q : ι × (C × D) → ℝ} (h : ∀ i c e, DifferentiableAt ℝ nl (one q i c e))
    (θ : Layer D D → ℝ) (k : ι × (C × D)) : DifferentiableAt ℝ (fun q' => simple nl θ q' k) q := by
  rcases k with ⟨i, c, d⟩
  exact differentiableAt_linear (x := fun y => map nl (one y)) _ (fun i c e => differentiableAt_nl (k := e0 i c e) (h i c e)) i c d

theorem params_simple [Unique C] (nl : ℝ → ℝ) (q p : ι × (C × D) → ℝ) :
    simpleParams nl q p = fun r => gradLayer (one p) (map nl (one q)) r / Fintype.card ι := by
  unfold simpleParams
  rw [layer_eq (one p) (map nl (one q))]
  · intro o j
    simp [outerRow, t, div_eq_inv_mul]
  · intro c o
    simp [div_eq_inv_mul]

/-! ## DEBUG simple -/

theorem pairing_debugSimple (nl : ℝ → ℝ) (q p : ι × Two C D D → ℝ) (θ : Layer D D ⊕ Layer D D → ℝ) :
    ∑ k, p k * debugSimple nl θ q k =
      ∑ r, Sum.elim (gradLayer (q1 p) (map nl (q1 q))) (gradLayer (q2 p) (map nl (q2 q))) r * θ r := by
  unfold debugSimple
  rw [sum_join, pair_linear, pair_linear, Fintype.sum_sum_type]
  rfl

theorem grad_debugSimple {nl dnl : ℝ → ℝ} {q : ι × Two C D D → ℝ}
    (h1 : ∀ i c e, HasDerivAt nl (dnl (q1 q i c e)) (q1 q i c e))
    (h2 : ∀ i c e, HasDerivAt nl (dnl (q2 q i c e)) (q2 q i c e)) (p : ι × Two C D D → ℝ) (θ : Layer D D ⊕ Layer D D → ℝ) :
    HasGrad (fun q' => ∑ k, p k * debugSimple nl θ q' k) (fun k => - debugSimpleCostate dnl θ q p k) q := by
  refine HasDir.hasGrad ?_
  have a := hasDir_layer (q1 p) (fun r => θ (.inl r)) nl (fun i c e => dnl (q1 q i c e)) e1 q h1
  have b := hasDir_layer (q2 p) (fun r => θ (.inr r)) nl (fun i c e => dnl (q2 q i c e)) e2 q h2
  refine (a.add b).congr (fun y => ?_) (fun v => ?_)
  · unfold debugSimple
    rw [sum_join]
    rfl
  · change ∑ k, (fun k => - debugSimpleCostate dnl θ q p k) k * v k = _
    unfold debugSimpleCostate
    rw [neg_join, sum_join_left]
    congr 1
    · congr 1
      funext i c e
      simp
    · congr 1
      funext i c d
      simp

theorem diff_debugSimple {nl : ℝ → ℝ} {q : ι × Two C D D → ℝ} (h1 : ∀ i c e, DifferentiableAt ℝ nl (q1 q i c e))
    (h2 : ∀ i c e, DifferentiableAt ℝ nl (q2 q i c e))
    (θ : Layer D D ⊕ Layer D D → ℝ) (k : ι × Two C D D) : DifferentiableAt ℝ (fun q' => debugSimple nl θ q' k) q := by
  rcases k with ⟨i, ⟨c, d⟩ | ⟨c, e⟩⟩
  · exact differentiableAt_linear (x := fun y => map nl (q1 y)) (fun r => θ (.inl r)) (fun i c e => differentiableAt_nl (k := e1 i c e) (h1 i c e)) i c d
  · exact differentiableAt_linear (x := fun y => map nl (q2 y)) (fun r => θ (.inr r)) (fun i c e => differentiableAt_nl (k := e2 i c e) (h2 i c e)) i c e

theorem params_debugSimple [Unique C] (nl : ℝ → ℝ) (q p : ι × Two C D D → ℝ) :
    debugSimpleParams nl q p = fun r =>
      Sum.elim (gradLayer (q1 p) (map nl (q1 q))) (gradLayer (q2 p) (map nl (q2 q))) r / Fintype.card ι := by
  unfold debugSimpleParams
  rw [params_simple, params_simple]
  funext r
  rcases r with r | r <;> rfl

/-! ## Symmetrized -/

/-- Indices of the three tensors. -/
def f1 : ι → C → D → ι × Three C D E := fun i c d => (i, .inl (c, d))
def f2 : ι → C → E → ι × Three C D E := fun i c e => (i, .inr (.inl (c, e)))
def f3 : ι → C → D → ι × Three C D E := fun i c d => (i, .inr (.inr (c, d)))

/-- Coefficients of the parameters of the symmetrized model. -/
def gradSymmetrized (nl : ℝ → ℝ) (q p : ι × Three C D E → ℝ) : SymmetrizedPar D E → ℝ :=
  Sum.elim (gradLayer (s1 p) (map nl (s2 q))) (Sum.elim (gradLayer (s2 p) (map nl (s3 q))) (gradLayer (s3 p) (s1 q)))

theorem pairing_symmetrized (nl : ℝ → ℝ) (q p : ι × Three C D E → ℝ) (θ : SymmetrizedPar D E → ℝ) :
    ∑ k, p k * symmetrized nl θ q k = ∑ r, gradSymmetrized nl q p r * θ r := by
  unfold symmetrized gradSymmetrized
  rw [sum_join3, pair_linear, pair_linear, pair_linear, Fintype.sum_sum_type, Fintype.sum_sum_type]
  rfl

theorem grad_symmetrized {nl dnl : ℝ → ℝ} {q : ι × Three C D E → ℝ}
    (h2 : ∀ i c e, HasDerivAt nl (dnl (s2 q i c e)) (s2 q i c e))
    (h3 : ∀ i c e, HasDerivAt nl (dnl (s3 q i c e)) (s3 q i c e)) (p : ι × Three C D E → ℝ) (θ : SymmetrizedPar D E → ℝ) :
    HasGrad (fun q' => ∑ k, p k * symmetrized nl θ q' k) (fun k => - symmetrizedCostate dnl θ q p k) q := by
  refine HasDir.hasGrad ?_
  have a := hasDir_layer (s1 p) (fun r => θ (.inl r)) nl (fun i c e => dnl (s2 q i c e)) f2 q h2
  have b := hasDir_layer (s2 p) (fun r => θ (.inr (.inl r))) nl (fun i c e => dnl (s3 q i c e)) f3 q h3
  have d := hasDir_layer (s3 p) (fun r => θ (.inr (.inr r))) (fun y => y) (fun _ _ _ => 1) f1 q (fun _ _ _ => id_deriv _)
  refine (a.add (b.add d)).congr (fun y => ?_) (fun v => ?_)
  · unfold symmetrized
    rw [sum_join3]
    rfl
  · change ∑ k, (fun k => - symmetrizedCostate dnl θ q p k) k * v k = _
    unfold symmetrizedCostate
    rw [neg_join3, sum_join3_left]
    change _ = pair _ (s2 v) + (pair _ (s3 v) + pair _ (s1 v))
    rw [add_comm, add_assoc]
    congr 1
    · congr 1
      funext i c e
      simp
    · congr 1
      · congr 1
        funext i c d
        simp
      · congr 1
        funext i c d
        simp

theorem diff_symmetrized {nl : ℝ → ℝ} {q : ι × Three C D E → ℝ} (h2 : ∀ i c e, DifferentiableAt ℝ nl (s2 q i c e))
    (h3 : ∀ i c e, DifferentiableAt ℝ nl (s3 q i c e))
    (θ : SymmetrizedPar D E → ℝ) (k : ι × Three C D E) : DifferentiableAt ℝ (fun q' => symmetrized nl θ q' k) q := by
  rcases k with ⟨i, ⟨c, d⟩ | ⟨c, e⟩ | ⟨c, d⟩⟩
  · exact differentiableAt_linear (x := fun y => map nl (s2 y)) (fun r => θ (.inl r)) (fun i c e => differentiableAt_nl (k := f2 i c e) (h2 i c e)) i c d
  · exact differentiableAt_linear (x := fun y => map nl (s3 y)) (fun r => θ (.inr (.inl r))) (fun i c e => differentiableAt_nl (k := f3 i c e) (h3 i c e)) i c e
  · exact differentiableAt_linear (x := fun y => s1 y) (fun r => θ (.inr (.inr r))) (fun i c d => differentiableAt_apply (f1 i c d) q) i c d

theorem params_symmetrized [Unique C] (nl : ℝ → ℝ) (q p : ι × Three C D E → ℝ) :
    symmetrizedParams nl q p = fun r => gradSymmetrized nl q p r / Fintype.card ι := by
  unfold symmetrizedParams gradSymmetrized
  dsimp only
  rw [layer_eq (s1 p) (map nl (s2 q)) (t (mean0 (bmm (map nl (transpose12 (s2 q))) (s1 p)))) (mean0 (s1 p)),
    layer_eq (s2 p) (map nl (s3 q)) (mean0 (bmm (transpose12 (s2 p)) (map nl (s3 q)))) (t (mean0 (transpose12 (s2 p)))),
    layer_eq (s3 p) (s1 q) (t (mean0 (bmm (transpose12 (s1 q)) (s3 p)))) (mean0 (s3 p))]
  · funext r
    rcases r with r | r | r <;> rfl
  all_goals
    intro o j
    simp [mean0, bmm, transpose12, t, map, mul_comm]

end Verif.Models
