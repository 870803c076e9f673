import Verif.Converge.Global
import Verif.Activation.Props

/-!
# The model classes and nonlinearities of the package to which C68 and C69 apply
-/

namespace Verif.Converge
open Set Verif Verif.Shooting Verif.Evolution Verif.Models Verif.Activation

/-! ## The nonlinearities -/

theorem contDiff_tanh {n : ℕ} : ContDiff ℝ n Real.tanh := by
  have : Real.tanh = fun x => Real.sinh x / Real.cosh x := funext Real.tanh_eq_sinh_div_cosh
  rw [this]
  exact Real.contDiff_sinh.div Real.contDiff_cosh fun x => (Real.cosh_pos x).ne'

theorem contDiff_sigmoid {n : ℕ} : ContDiff ℝ n sigmoid := by
  unfold sigmoid
  exact contDiff_const.div (contDiff_const.add (Real.contDiff_exp.comp contDiff_neg)) fun x => by positivity

theorem contDiff_softmax {n : ℕ} (ε : ℝ) : ContDiff ℝ n (softmax ε) := by
  unfold softmax
  exact (contDiff_id.mul contDiff_const).div ((Real.contDiff_exp.comp (contDiff_neg.mul contDiff_const)).add contDiff_const) fun x => by positivity

theorem tame_tanh : Tame Real.tanh := ⟨1, zero_le_one, fun x => by
  have h : |Real.tanh x| ≤ 1 := by
    rw [Real.tanh_eq_sinh_div_cosh, abs_div, abs_of_pos (Real.cosh_pos x), div_le_one (Real.cosh_pos x)]
    refine abs_le_of_sq_le_sq ?_ (Real.cosh_pos x).le
    nlinarith [Real.cosh_sq x]
  have := abs_nonneg x
  linarith⟩

theorem tame_sigmoid : Tame sigmoid := ⟨1, zero_le_one, fun x => by
  have h0 := Real.exp_pos (-x)
  have h : |sigmoid x| ≤ 1 := by
    unfold sigmoid
    rw [abs_of_pos (by positivity), div_le_one (by positivity)]
    linarith
  have := abs_nonneg x
  linarith⟩

theorem tame_softmax (ε : ℝ) : Tame (softmax ε) := ⟨1, zero_le_one, fun x => by
  have h0 := Real.exp_pos (-x * ε)
  have h : |softmax ε x| ≤ |x| := by
    unfold softmax
    rw [abs_div, mul_one, abs_of_pos (a := Real.exp (-x * ε) + 1) (by positivity)]
    refine div_le_self (abs_nonneg x) (by linarith)
  linarith⟩

theorem tame_identity : Tame identity := ⟨1, zero_le_one, fun x => by unfold identity; linarith⟩

/-- C69: every nonlinearity the package offers, except `relu`, has two continuous derivatives and grows at most linearly.  (`relu` has a kink: `C30_relu_zero`.) -/
theorem C69_nonlinearities (s : Option (List Char)) (n : Name) (hs : choose s = .ok n) (hn : n ≠ .relu) :
    ∃ f g, getNonlinearity s = .ok (f, g) ∧ ContDiff ℝ 2 f ∧ Tame f := by
  refine ⟨(pair n).1, (pair n).2, by unfold getNonlinearity; rw [hs]; rfl, ?_⟩
  cases n with
  | relu => exact absurd rfl hn
  | tanh => exact ⟨contDiff_tanh (n := 2), tame_tanh⟩
  | identity => exact ⟨contDiff_id, tame_identity⟩
  | sigmoid => exact ⟨contDiff_sigmoid (n := 2), tame_sigmoid⟩
  | softmax => exact ⟨contDiff_softmax (n := 2) 1, tame_softmax 1⟩

example : ∃ f g, getNonlinearity (some "Tanh".toList) = .ok (f, g) ∧ ContDiff ℝ 2 f ∧ Tame f := C69_nonlinearities _ .tanh (by decide) (by decide)

/-! ## The classes -/

section
variable {ι C D E O I : Type} [Fintype ι] [Fintype C] [Fintype D] [Fintype E] [Fintype O] [Fintype I] {J : Type} [Fintype J] {nl : ℝ → ℝ}

omit [Fintype ι] [Fintype C] [Fintype O] in
theorem growth_linear {x : (J → ℝ) → T3 ι C I} (θ : Layer O I → ℝ) (hx : ∀ i c j, LinGrowth fun y => x y i c j) (i : ι) (c : C) (o : O) :
    LinGrowth fun y => linear θ (x y) i c o := by
  unfold linear
  exact (LinGrowth.sum _ fun j _ => (hx i c j).mul_const _).add (linGrowth_const _)

omit [Fintype ι] [Fintype C] [Fintype O] in
theorem growth_linearNB {x : (J → ℝ) → T3 ι C I} (θ : O × I → ℝ) (hx : ∀ i c j, LinGrowth fun y => x y i c j) (i : ι) (c : C) (o : O) :
    LinGrowth fun y => linearNB θ (x y) i c o := by
  unfold linearNB
  exact LinGrowth.sum _ fun j _ => (hx i c j).mul_const _

theorem grow_q1 : ∀ i c d, LinGrowth fun y : ι × Two C D E → ℝ => q1 y i c d := fun i c d => linGrowth_coord (i, Sum.inl (c, d))
theorem grow_q2 : ∀ i c e, LinGrowth fun y : ι × Two C D E → ℝ => q2 y i c e := fun i c e => linGrowth_coord (i, Sum.inr (c, e))
theorem grow_nl_q1 (hn : Tame nl) : ∀ i c d, LinGrowth fun y : ι × Two C D E → ℝ => map nl (q1 y) i c d := fun i c d => linGrowth_nl hn (i, Sum.inl (c, d))
theorem grow_nl_q2 (hn : Tame nl) : ∀ i c e, LinGrowth fun y : ι × Two C D E → ℝ => map nl (q2 y) i c e := fun i c e => linGrowth_nl hn (i, Sum.inr (c, e))

theorem growth_upDown (hn : Tame nl) : Growth (upDown nl : Rhs (ι × Two C D E) _) := by
  rintro θ ⟨i, ⟨c, d⟩ | ⟨c, e⟩⟩
  · exact growth_linear (fun r => θ (.inl r)) (grow_nl_q2 hn) i c d
  · exact growth_linear (fun r => θ (.inr r)) grow_q1 i c e

theorem growth_universal (hn : Tame nl) : Growth (universal nl : Rhs (ι × Two C D E) _) := by
  rintro θ ⟨i, ⟨c, d⟩ | ⟨c, e⟩⟩
  · exact growth_linear (fun r => θ (.inl r)) (grow_nl_q2 hn) i c d
  · exact (growth_linear (fun r => θ (.inr (.inl r))) grow_q1 i c e).add (growth_linearNB (fun r => θ (.inr (.inr r))) (grow_nl_q2 hn) i c e)

theorem growth_periodic (hn : Tame nl) : Growth (periodic nl : Rhs (ι × Two C D E) _) := by
  rintro θ ⟨i, ⟨c, d⟩ | ⟨c, e⟩⟩
  · exact (growth_linear (fun r => θ (.inl r)) (grow_nl_q2 hn) i c d).add (growth_linearNB (fun r => θ (.inr (.inr r))) grow_q1 i c d)
  · exact growth_linear (fun r => θ (.inr (.inl r))) grow_q1 i c e

theorem growth_general (hn : Tame nl) (damp : ℝ) : Growth (general nl damp : Rhs (ι × Two C D E) _) := by
  rintro θ ⟨i, ⟨c, d⟩ | ⟨c, e⟩⟩
  · exact (((growth_linear (l11 θ) (grow_nl_q2 hn) i c d).add (growth_linearNB (l12 θ) grow_q1 i c d)).add
      (growth_linearNB (l13 θ) (grow_nl_q1 hn) i c d)).add (growth_linearNB (l14 θ) grow_q2 i c d)
  · have h := (grow_q2 (ι := ι) (C := C) (D := D) (E := E) i c e).mul_const damp
    have e1 : (fun y : ι × Two C D E → ℝ => q2 y i c e * damp) = fun y => damp * q2 y i c e := funext fun y => mul_comm _ _
    rw [e1] at h
    exact ((((growth_linear (l21 θ) grow_q1 i c e).add (growth_linearNB (l22 θ) grow_q2 i c e)).add
      (growth_linearNB (l23 θ) (grow_nl_q2 hn) i c e)).add (growth_linearNB (l24 θ) (grow_nl_q1 hn) i c e)).sub h

theorem growth_simple (hn : Tame nl) : Growth (simple nl : Rhs (ι × (C × D)) _) := by
  rintro θ ⟨i, c, d⟩
  exact growth_linear (x := fun y => map nl (one y)) θ (fun i c e => linGrowth_nl hn (i, (c, e))) i c d

theorem growth_debugSimple (hn : Tame nl) : Growth (debugSimple nl : Rhs (ι × Two C D D) _) := by
  rintro θ ⟨i, ⟨c, d⟩ | ⟨c, e⟩⟩
  · exact growth_linear (fun r => θ (.inl r)) (grow_nl_q1 hn) i c d
  · exact growth_linear (fun r => θ (.inr r)) (grow_nl_q2 hn) i c e

theorem growth_symmetrized (hn : Tame nl) : Growth (symmetrized nl : Rhs (ι × Three C D E) _) := by
  rintro θ ⟨i, ⟨c, d⟩ | ⟨c, e⟩ | ⟨c, d⟩⟩
  · exact growth_linear (x := fun y => map nl (s2 y)) (fun r => θ (.inl r)) (fun i c e => linGrowth_nl hn (i, Sum.inr (Sum.inl (c, e)))) i c d
  · exact growth_linear (x := fun y => map nl (s3 y)) (fun r => θ (.inr (.inl r))) (fun i c e => linGrowth_nl hn (i, Sum.inr (Sum.inr (c, e)))) i c e
  · exact growth_linear (x := fun y => s1 y) (fun r => θ (.inr (.inr r))) (fun i c e => linGrowth_coord (i, Sum.inl (c, e))) i c d

/-- C69: the classes without damping are regular for every nonlinearity as in `C69_nonlinearities`. -/
theorem C69_classes (hs : ContDiff ℝ 2 nl) (hn : Tame nl) :
    Regular (fun _ => simple nl : Class (C × D) _) ∧ Regular (fun _ => upDown nl : Class (Two C D E) _) ∧ Regular (fun _ => secondOrder nl : Class (Two C D D) _) ∧
    Regular (fun _ => universal nl : Class (Two C D E) _) ∧ Regular (fun _ => periodic nl : Class (Two C D E) _) ∧ Regular (fun _ => general nl 0 : Class (Two C D E) _) ∧
    Regular (fun _ => debugSimple nl : Class (Two C D D) _) ∧ Regular (fun _ => symmetrized nl : Class (Three C D E) _) :=
  have h2 : ContDiff ℝ (2 : ℕ) nl := hs
  ⟨⟨fun _ _ => linear_simple nl, fun _ _ => smooth_simple h2, fun _ _ => growth_simple hn⟩,
   ⟨fun _ _ => linear_upDown nl, fun _ _ => smooth_upDown h2, fun _ _ => growth_upDown hn⟩,
   ⟨fun _ _ => linear_upDown nl, fun _ _ => smooth_upDown h2, fun _ _ => growth_upDown hn⟩,
   ⟨fun _ _ => linear_universal nl, fun _ _ => smooth_universal h2, fun _ _ => growth_universal hn⟩,
   ⟨fun _ _ => linear_periodic nl, fun _ _ => smooth_periodic h2, fun _ _ => growth_periodic hn⟩,
   ⟨fun _ _ => linear_general nl, fun _ _ => smooth_general h2 0, fun _ _ => growth_general hn 0⟩,
   ⟨fun _ _ => linear_debugSimple nl, fun _ _ => smooth_debugSimple h2, fun _ _ => growth_debugSimple hn⟩,
   ⟨fun _ _ => linear_symmetrized nl, fun _ _ => smooth_symmetrized h2, fun _ _ => growth_symmetrized hn⟩⟩

end
end Verif.Converge
