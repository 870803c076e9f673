import Verif.Converge.Run
import Verif.Models.Props
import Verif.Evolution.Lemmas
import Mathlib.Analysis.Calculus.ContDiff.Operations

/-!
# When the shooting equations are continuously differentiable
-/

namespace Verif.Converge
open Verif Verif.Shooting Verif.Evolution Verif.Models

variable {ι β K K' P : Type} [Fintype ι] [Fintype β] [Fintype K] [Fintype K'] [Fintype P]

section
variable {J : Type} [Fintype J]

theorem autograd_fderiv {F : (J → ℝ) → ℝ} (hF : Differentiable ℝ F) (x : J → ℝ) (j : J) :
    autograd F x j = open Classical in fderiv ℝ F x (Pi.single j 1) := by
  classical
  have h := (hasGrad_of_differentiableAt (hF x)).fderiv
  rw [h, grad_apply]
  simp [Pi.single_apply]

/-- One derivative less. -/
theorem contDiff_autograd {F : (J → ℝ) → ℝ} {n : ℕ} (hF : ContDiff ℝ (n + 1) F) (j : J) : ContDiff ℝ n fun x => autograd F x j := by
  classical
  have h1 : ContDiff ℝ n (fderiv ℝ F) := hF.fderiv_right le_rfl
  have hd : Differentiable ℝ F := hF.differentiable (by simp)
  have : (fun x => autograd F x j) = fun x => fderiv ℝ F x (Pi.single j 1) := by
    funext x
    rw [autograd_fderiv hd]
  rw [this]
  exact h1.clm_apply contDiff_const

end

/-- The components of a right-hand side have `n` continuous derivatives, for all parameters. -/
def SmoothRhs {J : Type} [Fintype J] (n : ℕ) (f : Rhs J P) : Prop := ∀ θ j, ContDiff ℝ n fun q => f θ q j

omit [Fintype P] in
theorem SmoothRhs.coeff {n : ℕ} {f : Rhs (ι × K) P} (hs : SmoothRhs n f) (j : ι × K) (r : P) : ContDiff ℝ n fun q => coeff f q j r :=
  (hs _ j).sub (hs 0 j)

section
variable {X : Type} [NormedAddCommGroup X] [NormedSpace ℝ X]

/-- The value of an affine right-hand side at smooth parameters and a smooth state. -/
theorem SmoothRhs.comp {n : ℕ} {f : Rhs (ι × K) P} (ha : AffineInParams f) (hs : SmoothRhs n f) {θ : X → P → ℝ} {q : X → ι × K → ℝ}
    (hθ : ContDiff ℝ n θ) (hq : ContDiff ℝ n q) : ContDiff ℝ n fun x => f (θ x) (q x) := by
  rw [contDiff_pi]
  intro j
  have : (fun x => f (θ x) (q x) j) = fun x => f 0 (q x) j + ∑ r, Shooting.coeff f (q x) j r * θ x r := by
    funext x
    exact affine_coeff ha _ _ _
  rw [this]
  refine ((hs 0 j).comp hq).add (ContDiff.sum fun r _ => ?_)
  exact ((hs.coeff j r).comp hq).mul ((contDiff_pi.1 hθ) r)

theorem contDiff_directParameters {n : ℕ} {f : Rhs (ι × K) P} (ha : AffineInParams f) (hs : SmoothRhs n f) (w : P → Option ℝ) (θ0 : X → P → ℝ) {q p : X → ι × K → ℝ}
    (hq : ContDiff ℝ n q) (hp : ContDiff ℝ n p) : ContDiff ℝ n fun x => directParameters f w (θ0 x) (q x) (p x) := by
  rw [contDiff_pi]
  intro r
  have : (fun x => directParameters f w (θ0 x) (q x) (p x) r) = fun x => (∑ j, p x j * Shooting.coeff f (q x) j r) / Fintype.card ι / weight w r := by
    funext x
    exact directParameters_eq ha w _ _ _ _
  rw [this]
  exact ((ContDiff.sum fun j _ => ((contDiff_pi.1 hp) j).mul ((hs.coeff j r).comp hq)).div_const _).div_const _

/-- The derivative of the costate at given parameters. -/
theorem gradient_formula {f : Rhs (ι × K) P} (ha : AffineInParams f) (hd : ∀ θ j, Differentiable ℝ fun q => f θ q j) (θ : P → ℝ) (q p : ι × K → ℝ) :
    HasGrad (fun q' => ∑ j, p j * f θ q' j)
      (fun k => ∑ j, p j * (autograd (fun q' => f 0 q' j) q k + ∑ r, autograd (fun q' => Shooting.coeff f q' j r) q k * θ r)) q := by
  refine HasGrad.sum (F := fun j q' => p j * f θ q' j) fun j => HasGrad.const_mul _ ?_
  have h1 := hasGrad_of_differentiableAt (hd 0 j q)
  have h2 : ∀ r, HasGrad (fun q' => θ r * Shooting.coeff f q' j r) (fun k => θ r * autograd (fun q' => Shooting.coeff f q' j r) q k) q := fun r =>
    (hasGrad_of_differentiableAt ((hd _ j q).sub (hd 0 j q))).const_mul _
  refine (h1.add (HasGrad.sum h2)).congr (fun y => ?_) fun k => ?_
  · rw [affine_coeff ha θ y j]
    simp only [mul_comm]
  · simp only [mul_comm]

theorem contDiff_gradient {n : ℕ} {f : Rhs (ι × K) P} (hs : SmoothRhs (n + 1) f) {θ : X → P → ℝ} {q p : X → ι × K → ℝ}
    (hθ : ContDiff ℝ n θ) (hq : ContDiff ℝ n q) (hp : ContDiff ℝ n p) :
    ContDiff ℝ n fun x => fun k => - ∑ j, p x j * (autograd (fun q' => f 0 q' j) (q x) k + ∑ r, autograd (fun q' => Shooting.coeff f q' j r) (q x) k * θ x r) := by
  rw [contDiff_pi]
  intro k
  refine (ContDiff.sum fun j _ => ((contDiff_pi.1 hp) j).mul ?_).neg
  refine ((contDiff_autograd (hs 0 j) k).comp hq).add (ContDiff.sum fun r _ => ?_)
  exact ((contDiff_autograd (hs.coeff j r) k).comp hq).mul ((contDiff_pi.1 hθ) r)

omit [Fintype P] in
theorem SmoothRhs.differentiable {n : ℕ} {f : Rhs (ι × K) P} (hs : SmoothRhs (n + 1) f) (θ : P → ℝ) (j : ι × K) : Differentiable ℝ fun q => f θ q j :=
  (hs θ j).differentiable (by simp)

omit [Fintype P] in
theorem SmoothRhs.less {J : Type} [Fintype J] {n : ℕ} {f : Rhs J P} (hs : SmoothRhs (n + 1) f) : SmoothRhs n f := fun θ j => (hs θ j).of_le (by exact_mod_cast Nat.le_succ n)

/-- Automatic differentiation, parameters computed at every evaluation. -/
theorem contDiff_autodiff [Nonempty ι] {n : ℕ} {f : Class K P} (ha : AffineInParams (f ι)) (hs : SmoothRhs (n + 1) (f ι)) {g : Class K' P} (hab : AffineInParams (g β)) (hsb : SmoothRhs n (g β))
    (w : P → Option ℝ) (hw : ∀ r, weight w r ≠ 0) (ρ : ℝ → (P → ℝ) × (P → ℝ)) :
    ContDiff ℝ n fun z : ℝ × Sys2 ι β K K' => Evolution.field2 f g (Evolution.autodiff f w ρ) z.1 z.2 := by
  have hq : ContDiff ℝ n fun z : ℝ × Sys2 ι β K K' => z.2.1 := by fun_prop
  have hp : ContDiff ℝ n fun z : ℝ × Sys2 ι β K K' => z.2.2.1 := by fun_prop
  have hx : ContDiff ℝ n fun z : ℝ × Sys2 ι β K K' => z.2.2.2 := by fun_prop
  have hθ : ContDiff ℝ n fun z : ℝ × Sys2 ι β K K' => directParameters (f ι) w (ρ z.1).1 z.2.1 z.2.2.1 := contDiff_directParameters ha hs.less w _ hq hp
  have hθ2 : ContDiff ℝ n fun z : ℝ × Sys2 ι β K K' => directParameters (f ι) w (ρ z.1).2 z.2.1 z.2.2.1 := contDiff_directParameters ha hs.less w _ hq hp
  refine (hs.less.comp ha hθ hq).prodMk (ContDiff.prodMk ?_ (hsb.comp hab hθ hx))
  have : (fun z : ℝ × Sys2 ι β K K' => costateRhs (f ι) w (ρ z.1).2 z.2.1 z.2.2.1) = fun z => fun k => - ∑ j, z.2.2.1 j *
      (autograd (fun q' => f ι 0 q' j) z.2.1 k + ∑ r, autograd (fun q' => Shooting.coeff (f ι) q' j r) z.2.1 k * directParameters (f ι) w (ρ z.1).2 z.2.1 z.2.2.1 r) := by
    funext z
    exact (C34_costate_gradient ha w hw _ _ _ (fun θ j => hs.differentiable θ j _) (gradient_formula ha hs.differentiable _ _ _)).2
  exact this ▸ contDiff_gradient hs hθ2 hq hp

/-- Given parameters that vary smoothly with time (RNN mode: constant). -/
theorem contDiff_given [Nonempty ι] {n : ℕ} {f : Class K P} (ha : AffineInParams (f ι)) (hs : SmoothRhs (n + 1) (f ι)) {g : Class K' P} (hab : AffineInParams (g β)) (hsb : SmoothRhs n (g β))
    (w : P → Option ℝ) {θ : ℝ → P → ℝ} (hθ : ContDiff ℝ n θ) :
    ContDiff ℝ n fun z : ℝ × Sys2 ι β K K' => Evolution.field2 f g (Evolution.given f w θ) z.1 z.2 := by
  have hq : ContDiff ℝ n fun z : ℝ × Sys2 ι β K K' => z.2.1 := by fun_prop
  have hp : ContDiff ℝ n fun z : ℝ × Sys2 ι β K K' => z.2.2.1 := by fun_prop
  have hx : ContDiff ℝ n fun z : ℝ × Sys2 ι β K K' => z.2.2.2 := by fun_prop
  have hθ : ContDiff ℝ n fun z : ℝ × Sys2 ι β K K' => θ z.1 := hθ.comp contDiff_fst
  refine (hs.less.comp ha hθ hq).prodMk (ContDiff.prodMk ?_ (hsb.comp hab hθ hx))
  have : (fun z : ℝ × Sys2 ι β K K' => costateRhsFixed (f ι) w (θ z.1) z.2.1 z.2.2.1) = fun z => fun k => - ∑ j, z.2.2.1 j *
      (autograd (fun q' => f ι 0 q' j) z.2.1 k + ∑ r, autograd (fun q' => Shooting.coeff (f ι) q' j r) z.2.1 k * θ z.1 r) := by
    funext z
    exact C34_fixed_parameters (f ι) w _ _ _ (fun j => hs.differentiable _ j _) (gradient_formula ha hs.differentiable _ _ _)
  exact this ▸ contDiff_gradient hs hθ hq hp

end

/-! ## The classes -/

section
variable {C D E O I : Type} [Fintype C] [Fintype D] [Fintype E] [Fintype O] [Fintype I] {J : Type} [Fintype J] {n : ℕ}

omit [Fintype ι] [Fintype C] [Fintype O] in
theorem smooth_linear {x : (J → ℝ) → T3 ι C I} (θ : Layer O I → ℝ) (hx : ∀ i c j, ContDiff ℝ n fun y => x y i c j) (i : ι) (c : C) (o : O) :
    ContDiff ℝ n fun y => linear θ (x y) i c o := by
  unfold linear
  exact (ContDiff.sum fun j _ => (hx i c j).mul contDiff_const).add contDiff_const

omit [Fintype ι] [Fintype C] [Fintype O] in
theorem smooth_linearNB {x : (J → ℝ) → T3 ι C I} (θ : O × I → ℝ) (hx : ∀ i c j, ContDiff ℝ n fun y => x y i c j) (i : ι) (c : C) (o : O) :
    ContDiff ℝ n fun y => linearNB θ (x y) i c o := by
  unfold linearNB
  exact ContDiff.sum fun j _ => (hx i c j).mul contDiff_const

theorem smooth_coord (k : J) : ContDiff ℝ n fun y : J → ℝ => y k := contDiff_apply ℝ ℝ k

theorem smooth_nl {nl : ℝ → ℝ} (hn : ContDiff ℝ n nl) (k : J) : ContDiff ℝ n fun y : J → ℝ => nl (y k) := hn.comp (contDiff_apply ℝ ℝ k)

section
variable {nl : ℝ → ℝ}

theorem at_q1 : ∀ i c d, ContDiff ℝ n fun y : ι × Two C D E → ℝ => q1 y i c d := fun i c d => smooth_coord (i, Sum.inl (c, d))
theorem at_q2 : ∀ i c e, ContDiff ℝ n fun y : ι × Two C D E → ℝ => q2 y i c e := fun i c e => smooth_coord (i, Sum.inr (c, e))
theorem nl_q1 (hn : ContDiff ℝ n nl) : ∀ i c d, ContDiff ℝ n fun y : ι × Two C D E → ℝ => map nl (q1 y) i c d := fun i c d => smooth_nl hn (i, Sum.inl (c, d))
theorem nl_q2 (hn : ContDiff ℝ n nl) : ∀ i c e, ContDiff ℝ n fun y : ι × Two C D E → ℝ => map nl (q2 y) i c e := fun i c e => smooth_nl hn (i, Sum.inr (c, e))

theorem smooth_upDown (hn : ContDiff ℝ n nl) : SmoothRhs n (upDown nl : Rhs (ι × Two C D E) _) := by
  rintro θ ⟨i, ⟨c, d⟩ | ⟨c, e⟩⟩
  · exact smooth_linear (fun r => θ (.inl r)) (nl_q2 hn) i c d
  · exact smooth_linear (fun r => θ (.inr r)) at_q1 i c e

theorem smooth_secondOrder (hn : ContDiff ℝ n nl) : SmoothRhs n (secondOrder nl : Rhs (ι × Two C D D) _) := smooth_upDown hn

theorem smooth_universal (hn : ContDiff ℝ n nl) : SmoothRhs n (universal nl : Rhs (ι × Two C D E) _) := by
  rintro θ ⟨i, ⟨c, d⟩ | ⟨c, e⟩⟩
  · exact smooth_linear (fun r => θ (.inl r)) (nl_q2 hn) i c d
  · exact (smooth_linear (fun r => θ (.inr (.inl r))) at_q1 i c e).add (smooth_linearNB (fun r => θ (.inr (.inr r))) (nl_q2 hn) i c e)

theorem smooth_periodic (hn : ContDiff ℝ n nl) : SmoothRhs n (periodic nl : Rhs (ι × Two C D E) _) := by
  rintro θ ⟨i, ⟨c, d⟩ | ⟨c, e⟩⟩
  · exact (smooth_linear (fun r => θ (.inl r)) (nl_q2 hn) i c d).add (smooth_linearNB (fun r => θ (.inr (.inr r))) at_q1 i c d)
  · exact smooth_linear (fun r => θ (.inr (.inl r))) at_q1 i c e

theorem smooth_general (hn : ContDiff ℝ n nl) (damp : ℝ) : SmoothRhs n (general nl damp : Rhs (ι × Two C D E) _) := by
  rintro θ ⟨i, ⟨c, d⟩ | ⟨c, e⟩⟩
  · exact (((smooth_linear (l11 θ) (nl_q2 hn) i c d).add (smooth_linearNB (l12 θ) at_q1 i c d)).add
      (smooth_linearNB (l13 θ) (nl_q1 hn) i c d)).add (smooth_linearNB (l14 θ) at_q2 i c d)
  · exact ((((smooth_linear (l21 θ) at_q1 i c e).add (smooth_linearNB (l22 θ) at_q2 i c e)).add
      (smooth_linearNB (l23 θ) (nl_q2 hn) i c e)).add (smooth_linearNB (l24 θ) (nl_q1 hn) i c e)).sub (contDiff_const.mul (at_q2 i c e))

theorem smooth_dampenedQ2 (hn : ContDiff ℝ n nl) (damp : ℝ) : SmoothRhs n (dampenedQ2 nl damp : Rhs (ι × Two C D E) _) := by
  rintro θ ⟨i, ⟨c, d⟩ | ⟨c, e⟩⟩
  · exact smooth_linear (fun r => θ (.inl r)) (nl_q2 hn) i c d
  · exact (smooth_linear (fun r => θ (.inr r)) at_q1 i c e).sub (contDiff_const.mul (at_q2 i c e))

theorem smooth_simple (hn : ContDiff ℝ n nl) : SmoothRhs n (simple nl : Rhs (ι × (C × D)) _) := by
  rintro θ ⟨i, c, d⟩
  exact smooth_linear (x := fun y => map nl (one y)) θ (fun i c e => smooth_nl hn (i, (c, e))) i c d

theorem smooth_debugSimple (hn : ContDiff ℝ n nl) : SmoothRhs n (debugSimple nl : Rhs (ι × Two C D D) _) := by
  rintro θ ⟨i, ⟨c, d⟩ | ⟨c, e⟩⟩
  · exact smooth_linear (fun r => θ (.inl r)) (nl_q1 hn) i c d
  · exact smooth_linear (fun r => θ (.inr r)) (nl_q2 hn) i c e

theorem smooth_symmetrized (hn : ContDiff ℝ n nl) : SmoothRhs n (symmetrized nl : Rhs (ι × Three C D E) _) := by
  rintro θ ⟨i, ⟨c, d⟩ | ⟨c, e⟩ | ⟨c, d⟩⟩
  · exact smooth_linear (x := fun y => map nl (s2 y)) (fun r => θ (.inl r)) (fun i c e => smooth_nl hn (i, Sum.inr (Sum.inl (c, e)))) i c d
  · exact smooth_linear (x := fun y => map nl (s3 y)) (fun r => θ (.inr (.inl r))) (fun i c e => smooth_nl hn (i, Sum.inr (Sum.inr (c, e)))) i c e
  · exact smooth_linear (x := fun y => s1 y) (fun r => θ (.inr (.inr r))) (fun i c e => smooth_coord (i, Sum.inl (c, e))) i c d

theorem smooth_dampenedUpDown (hn : ContDiff ℝ n nl) : SmoothRhs n (dampenedUpDown nl : Rhs (ι × Four C D E) _) := by
  rintro θ ⟨i, (⟨c, d⟩ | ⟨c, e⟩) | u⟩
  · exact (smooth_linear (x := fun y => map nl (d2 y)) (fun r => θ (.inl r)) (fun i c e => smooth_nl hn (i, Sum.inl (Sum.inr (c, e)))) i c d).sub
      ((smooth_nl hn (i, Sum.inr (Sum.inl ()))).mul (smooth_coord (i, Sum.inl (Sum.inl (c, d)))))
  · exact (smooth_linear (x := fun y => map nl (d1 y)) (fun r => θ (.inr r)) (fun i c e => smooth_nl hn (i, Sum.inl (Sum.inl (c, e)))) i c e).sub
      ((smooth_nl hn (i, Sum.inr (Sum.inr ()))).mul (smooth_coord (i, Sum.inl (Sum.inr (c, e)))))
  · exact contDiff_const

end
end
end Verif.Converge
