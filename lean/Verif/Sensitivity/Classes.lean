import Verif.Sensitivity.Spec
import Verif.Models.Model
import Verif.Activation.Props
import Mathlib.Algebra.Order.BigOperators.Ring.Finset
import Mathlib.Analysis.Calculus.MeanValue

/-!
# The model classes move samples apart in a controlled way
-/

namespace Verif.Sensitivity
open Verif Verif.Evolution Verif.Models Verif.Shooting

section
variable {κ C D E O I : Type} [Fintype C] [Fintype D] [Fintype E] [Fintype O] [Fintype I]

/-- Squared distance of two samples in a tensor. -/
def sq (x : T3 κ C O) (s s' : κ) : ℝ := ∑ c, ∑ o, (x s c o - x s' c o) ^ 2

theorem sq_nonneg' (x : T3 κ C O) (s s' : κ) : 0 ≤ sq x s s' := Finset.sum_nonneg fun _ _ => Finset.sum_nonneg fun _ _ => sq_nonneg _

omit [Fintype C] in
theorem row (θ : O × I → ℝ) (δ : I → ℝ) : ∑ o, (∑ j, δ j * θ (o, j)) ^ 2 ≤ (∑ r, θ r ^ 2) * ∑ j, δ j ^ 2 := by
  rw [Fintype.sum_prod_type, Finset.sum_mul]
  refine Finset.sum_le_sum fun o _ => ?_
  rw [mul_comm]
  exact Finset.sum_mul_sq_le_sq_mul_sq _ _ _

theorem sq_linearNB (θ : O × I → ℝ) (x : T3 κ C I) (s s' : κ) : sq (linearNB θ x) s s' ≤ (∑ r, θ r ^ 2) * sq x s s' := by
  unfold sq
  rw [Finset.mul_sum]
  refine Finset.sum_le_sum fun c _ => ?_
  refine le_trans (le_of_eq ?_) (row θ fun j => x s c j - x s' c j)
  refine Finset.sum_congr rfl fun o _ => ?_
  simp only [linearNB, sub_mul, Finset.sum_sub_distrib]

theorem weights_le (θ : Layer O I → ℝ) : ∑ r : O × I, θ (r.1, some r.2) ^ 2 ≤ ∑ r, θ r ^ 2 := by
  rw [Fintype.sum_prod_type, Fintype.sum_prod_type]
  refine Finset.sum_le_sum fun o _ => ?_
  rw [Fintype.sum_option]
  linarith [sq_nonneg (θ (o, none))]

theorem sq_linear (θ : Layer O I → ℝ) (x : T3 κ C I) (s s' : κ) : sq (linear θ x) s s' ≤ (∑ r, θ r ^ 2) * sq x s s' := by
  refine le_trans (le_trans (le_of_eq ?_) (sq_linearNB (fun r : O × I => θ (r.1, some r.2)) x s s')) (mul_le_mul_of_nonneg_right (weights_le θ) (sq_nonneg' x s s'))
  unfold sq
  refine Finset.sum_congr rfl fun c _ => Finset.sum_congr rfl fun o _ => ?_
  simp only [linear, linearNB]
  ring

theorem sq_map {nl : ℝ → ℝ} {L : ℝ} (hn : ∀ u v, |nl u - nl v| ≤ L * |u - v|) (x : T3 κ C I) (s s' : κ) : sq (map nl x) s s' ≤ L ^ 2 * sq x s s' := by
  unfold sq
  simp only [Finset.mul_sum]
  refine Finset.sum_le_sum fun c _ => Finset.sum_le_sum fun o _ => ?_
  have h := pow_le_pow_left₀ (abs_nonneg _) (hn (x s c o) (x s' c o)) 2
  rw [mul_pow, sq_abs, sq_abs] at h
  exact h

theorem two_le {J : Type} (S : Finset J) (u v : J → ℝ) {A B X Y : ℝ} (hA : 0 ≤ A) (hB : 0 ≤ B) (hX : 0 ≤ X) (hY : 0 ≤ Y) (hu : ∑ j ∈ S, u j ^ 2 ≤ A * X) (hv : ∑ j ∈ S, v j ^ 2 ≤ B * Y) :
    ∑ j ∈ S, (u j + v j) ^ 2 ≤ (A + B) * (X + Y) := by
  have e : ∑ j ∈ S, (u j + v j) ^ 2 = ∑ j ∈ S, u j ^ 2 + ∑ j ∈ S, v j ^ 2 + 2 * ∑ j ∈ S, u j * v j := by
    rw [Finset.mul_sum, ← Finset.sum_add_distrib, ← Finset.sum_add_distrib]
    exact Finset.sum_congr rfl fun j _ => by ring
  have h1 : (∑ j ∈ S, u j * v j) ^ 2 ≤ (A * X) * (B * Y) :=
    (Finset.sum_mul_sq_le_sq_mul_sq S u v).trans (mul_le_mul hu hv (Finset.sum_nonneg fun _ _ => sq_nonneg _) (by positivity))
  have h2 : (2 * ∑ j ∈ S, u j * v j) ^ 2 ≤ (A * Y + B * X) ^ 2 := by nlinarith [sq_nonneg (A * Y - B * X)]
  have h3 := (abs_le.1 (abs_le_of_sq_le_sq h2 (by positivity))).2
  rw [e]
  nlinarith

theorem sq_add (u v : T3 κ C O) (s s' : κ) {A B X Y : ℝ} (hA : 0 ≤ A) (hB : 0 ≤ B) (hX : 0 ≤ X) (hY : 0 ≤ Y) (hu : sq u s s' ≤ A * X) (hv : sq v s s' ≤ B * Y) : sq (u + v) s s' ≤ (A + B) * (X + Y) := by
  unfold sq at *
  rw [← Fintype.sum_prod_type' (f := fun c o => (u s c o - u s' c o) ^ 2)] at hu
  rw [← Fintype.sum_prod_type' (f := fun c o => (v s c o - v s' c o) ^ 2)] at hv
  rw [← Fintype.sum_prod_type' (f := fun c o => ((u + v) s c o - (u + v) s' c o) ^ 2)]
  refine le_trans (le_of_eq (Finset.sum_congr rfl fun j _ => ?_)) (two_le Finset.univ (fun j : C × O => u s j.1 j.2 - u s' j.1 j.2) (fun j => v s j.1 j.2 - v s' j.1 j.2) hA hB hX hY hu hv)
  simp only [Pi.add_apply]
  ring

theorem dist_join (x : T3 κ C D) (y : T3 κ C E) (s s' : κ) : ∑ k, (join x y (s, k) - join x y (s', k)) ^ 2 = sq x s s' + sq y s s' := by
  rw [Fintype.sum_sum_type, Fintype.sum_prod_type, Fintype.sum_prod_type]
  rfl

theorem dist_two (q : κ × Two C D E → ℝ) (s s' : κ) : ∑ k, (q (s, k) - q (s', k)) ^ 2 = sq (q1 q) s s' + sq (q2 q) s s' := by
  rw [Fintype.sum_sum_type, Fintype.sum_prod_type, Fintype.sum_prod_type]
  rfl

theorem dist_join3 (x : T3 κ C D) (y : T3 κ C E) (z : T3 κ C D) (s s' : κ) : ∑ k, (join3 x y z (s, k) - join3 x y z (s', k)) ^ 2 = sq x s s' + (sq y s s' + sq z s s') := by
  rw [Fintype.sum_sum_type, Fintype.sum_sum_type, Fintype.sum_prod_type, Fintype.sum_prod_type, Fintype.sum_prod_type]
  rfl

theorem dist_three (q : κ × Three C D E → ℝ) (s s' : κ) : ∑ k, (q (s, k) - q (s', k)) ^ 2 = sq (s1 q) s s' + (sq (s2 q) s s' + sq (s3 q) s s') := by
  rw [Fintype.sum_sum_type, Fintype.sum_sum_type, Fintype.sum_prod_type, Fintype.sum_prod_type, Fintype.sum_prod_type]
  rfl

theorem dist_one (q : κ × (C × D) → ℝ) (s s' : κ) : ∑ k, (q (s, k) - q (s', k)) ^ 2 = sq (one q) s s' := by
  rw [Fintype.sum_prod_type]
  rfl

theorem dist_single (x : T3 κ C D) (s s' : κ) : ∑ k, (single x (s, k) - single x (s', k)) ^ 2 = sq x s s' := by
  rw [Fintype.sum_prod_type]
  rfl

theorem par_nonneg {P : Type} [Fintype P] (θ : P → ℝ) : 0 ≤ ∑ r, θ r ^ 2 := Finset.sum_nonneg fun _ _ => sq_nonneg _

variable {nl : ℝ → ℝ} {L c : ℝ}

/-- A linear layer after a nonlinearity. -/
theorem sq_linear_map (hn : ∀ u v, |nl u - nl v| ≤ L * |u - v|) (θ : Layer O I → ℝ) (x : T3 κ C I) (s s' : κ) : sq (linear θ (map nl x)) s s' ≤ (∑ r, θ r ^ 2) * (L ^ 2 * sq x s s') :=
  (sq_linear θ _ s s').trans (mul_le_mul_of_nonneg_left (sq_map hn x s s') (par_nonneg θ))

theorem sq_linearNB_map (hn : ∀ u v, |nl u - nl v| ≤ L * |u - v|) (θ : O × I → ℝ) (x : T3 κ C I) (s s' : κ) : sq (linearNB θ (map nl x)) s s' ≤ (∑ r, θ r ^ 2) * (L ^ 2 * sq x s s') :=
  (sq_linearNB θ _ s s').trans (mul_le_mul_of_nonneg_left (sq_map hn x s s') (par_nonneg θ))

variable (hn : ∀ u v, |nl u - nl v| ≤ L * |u - v|)
include hn

theorem controlled_simple (hL : L ^ 2 ≤ c ^ 2) : Controlled c (fun _ => simple nl : Class (C × D) _) := by
  intro κ θ x s s'
  simp only [simple, dist_single, dist_one]
  have h := sq_linear_map hn θ (one x) s s'
  have h1 := sq_nonneg' (one x) s s'
  have h2 := par_nonneg θ
  nlinarith [mul_nonneg h1 h2, mul_nonneg (mul_nonneg h1 h2) (sub_nonneg.2 hL)]

theorem controlled_upDown (h1 : 1 ≤ c ^ 2) (hL : L ^ 2 ≤ c ^ 2) : Controlled c (fun _ => upDown nl : Class (Two C D E) _) := by
  intro κ θ x s s'
  simp only [upDown, dist_join, dist_two]
  simp only [Fintype.sum_sum_type]
  have g1 := sq_linear_map hn (fun r => θ (.inl r)) (q2 x) s s'
  have g2 := sq_linear (fun r => θ (.inr r)) (q1 x) s s'
  have k1 := par_nonneg fun r => θ (.inl r)
  have k2 := par_nonneg fun r => θ (.inr r)
  have x1 := sq_nonneg' (q1 x) s s'
  have x2 := sq_nonneg' (q2 x) s s'
  generalize (∑ r, θ (.inl r) ^ 2) = A at *
  generalize (∑ r, θ (.inr r) ^ 2) = B at *
  generalize sq (q1 x) s s' = X at *
  generalize sq (q2 x) s s' = Y at *
  have e1 : A * (L ^ 2 * Y) ≤ A * (c ^ 2 * (X + Y)) := mul_le_mul_of_nonneg_left (by nlinarith [sq_nonneg c]) k1
  have e2 : B * X ≤ B * (c ^ 2 * (X + Y)) := mul_le_mul_of_nonneg_left (by nlinarith [sq_nonneg c]) k2
  calc _ ≤ A * (L ^ 2 * Y) + B * X := add_le_add g1 g2
    _ ≤ A * (c ^ 2 * (X + Y)) + B * (c ^ 2 * (X + Y)) := add_le_add e1 e2
    _ = _ := by ring

theorem controlled_debugSimple (hL : L ^ 2 ≤ c ^ 2) : Controlled c (fun _ => debugSimple nl : Class (Two C D D) _) := by
  intro κ θ x s s'
  simp only [debugSimple, dist_join, dist_two]
  simp only [Fintype.sum_sum_type]
  have g1 := sq_linear_map hn (fun r => θ (.inl r)) (q1 x) s s'
  have g2 := sq_linear_map hn (fun r => θ (.inr r)) (q2 x) s s'
  have k1 := par_nonneg fun r => θ (.inl r)
  have k2 := par_nonneg fun r => θ (.inr r)
  have x1 := sq_nonneg' (q1 x) s s'
  have x2 := sq_nonneg' (q2 x) s s'
  generalize (∑ r, θ (.inl r) ^ 2) = A at *
  generalize (∑ r, θ (.inr r) ^ 2) = B at *
  generalize sq (q1 x) s s' = X at *
  generalize sq (q2 x) s s' = Y at *
  have e1 : A * (L ^ 2 * X) ≤ A * (c ^ 2 * (X + Y)) := mul_le_mul_of_nonneg_left (by nlinarith [sq_nonneg c]) k1
  have e2 : B * (L ^ 2 * Y) ≤ B * (c ^ 2 * (X + Y)) := mul_le_mul_of_nonneg_left (by nlinarith [sq_nonneg c]) k2
  calc _ ≤ A * (L ^ 2 * X) + B * (L ^ 2 * Y) := add_le_add g1 g2
    _ ≤ A * (c ^ 2 * (X + Y)) + B * (c ^ 2 * (X + Y)) := add_le_add e1 e2
    _ = _ := by ring

theorem controlled_universal (h1 : 1 ≤ c ^ 2) (hL : L ^ 2 ≤ c ^ 2) : Controlled c (fun _ => universal nl : Class (Two C D E) _) := by
  intro κ θ x s s'
  simp only [universal, dist_join, dist_two]
  simp only [Fintype.sum_sum_type]
  have k1 := par_nonneg fun r => θ (.inl r)
  have k2 := par_nonneg fun r => θ (.inr (.inl r))
  have k3 := par_nonneg fun r => θ (.inr (.inr r))
  have x1 := sq_nonneg' (q1 x) s s'
  have x2 := sq_nonneg' (q2 x) s s'
  have g1 := sq_linear_map hn (fun r => θ (.inl r)) (q2 x) s s'
  have g2 := sq_add _ _ s s' k2 k3 x1 (mul_nonneg (sq_nonneg L) x2) (sq_linear (fun r => θ (.inr (.inl r))) (q1 x) s s') (sq_linearNB_map hn (fun r => θ (.inr (.inr r))) (q2 x) s s')
  generalize (∑ r, θ (.inl r) ^ 2) = A at *
  generalize (∑ r, θ (.inr (.inl r)) ^ 2) = B at *
  generalize (∑ r, θ (.inr (.inr r)) ^ 2) = B' at *
  generalize sq (q1 x) s s' = X at *
  generalize sq (q2 x) s s' = Y at *
  have e1 : A * (L ^ 2 * Y) ≤ A * (c ^ 2 * (X + Y)) := mul_le_mul_of_nonneg_left (by nlinarith [sq_nonneg c]) k1
  have e2 : (B + B') * (X + L ^ 2 * Y) ≤ (B + B') * (c ^ 2 * (X + Y)) := mul_le_mul_of_nonneg_left (by nlinarith [sq_nonneg c]) (by positivity)
  calc _ ≤ A * (L ^ 2 * Y) + (B + B') * (X + L ^ 2 * Y) := add_le_add g1 g2
    _ ≤ A * (c ^ 2 * (X + Y)) + (B + B') * (c ^ 2 * (X + Y)) := add_le_add e1 e2
    _ = _ := by ring

theorem controlled_periodic (h1 : 1 ≤ c ^ 2) (hL : L ^ 2 ≤ c ^ 2) : Controlled c (fun _ => periodic nl : Class (Two C D E) _) := by
  intro κ θ x s s'
  simp only [periodic, dist_join, dist_two]
  simp only [Fintype.sum_sum_type]
  have k1 := par_nonneg fun r => θ (.inl r)
  have k2 := par_nonneg fun r => θ (.inr (.inl r))
  have k3 := par_nonneg fun r => θ (.inr (.inr r))
  have x1 := sq_nonneg' (q1 x) s s'
  have x2 := sq_nonneg' (q2 x) s s'
  have g1 := sq_add _ _ s s' k1 k3 (mul_nonneg (sq_nonneg L) x2) x1 (sq_linear_map hn (fun r => θ (.inl r)) (q2 x) s s') (sq_linearNB (fun r => θ (.inr (.inr r))) (q1 x) s s')
  have g2 := sq_linear (fun r => θ (.inr (.inl r))) (q1 x) s s'
  generalize (∑ r, θ (.inl r) ^ 2) = A at *
  generalize (∑ r, θ (.inr (.inl r)) ^ 2) = B at *
  generalize (∑ r, θ (.inr (.inr r)) ^ 2) = A' at *
  generalize sq (q1 x) s s' = X at *
  generalize sq (q2 x) s s' = Y at *
  have e1 : (A + A') * (L ^ 2 * Y + X) ≤ (A + A') * (c ^ 2 * (X + Y)) := mul_le_mul_of_nonneg_left (by nlinarith [sq_nonneg c]) (by positivity)
  have e2 : B * X ≤ B * (c ^ 2 * (X + Y)) := mul_le_mul_of_nonneg_left (by nlinarith [sq_nonneg c]) k2
  calc _ ≤ (A + A') * (L ^ 2 * Y + X) + B * X := add_le_add g1 g2
    _ ≤ (A + A') * (c ^ 2 * (X + Y)) + B * (c ^ 2 * (X + Y)) := add_le_add e1 e2
    _ = _ := by ring

theorem controlled_symmetrized (h1 : 1 ≤ c ^ 2) (hL : L ^ 2 ≤ c ^ 2) : Controlled c (fun _ => symmetrized nl : Class (Three C D E) _) := by
  intro κ θ x s s'
  simp only [symmetrized, dist_join3, dist_three]
  simp only [Fintype.sum_sum_type]
  have k1 := par_nonneg fun r => θ (.inl r)
  have k2 := par_nonneg fun r => θ (.inr (.inl r))
  have k3 := par_nonneg fun r => θ (.inr (.inr r))
  have x1 := sq_nonneg' (s1 x) s s'
  have x2 := sq_nonneg' (s2 x) s s'
  have x3 := sq_nonneg' (s3 x) s s'
  have g1 := sq_linear_map hn (fun r => θ (.inl r)) (s2 x) s s'
  have g2 := sq_linear_map hn (fun r => θ (.inr (.inl r))) (s3 x) s s'
  have g3 := sq_linear (fun r => θ (.inr (.inr r))) (s1 x) s s'
  generalize (∑ r, θ (.inl r) ^ 2) = A at *
  generalize (∑ r, θ (.inr (.inl r)) ^ 2) = B at *
  generalize (∑ r, θ (.inr (.inr r)) ^ 2) = F at *
  generalize sq (s1 x) s s' = X at *
  generalize sq (s2 x) s s' = Y at *
  generalize sq (s3 x) s s' = Z at *
  have e1 : A * (L ^ 2 * Y) ≤ A * (c ^ 2 * (X + (Y + Z))) := mul_le_mul_of_nonneg_left (by nlinarith [sq_nonneg c, mul_nonneg (sq_nonneg c) x1, mul_nonneg (sq_nonneg c) x3]) k1
  have e2 : B * (L ^ 2 * Z) ≤ B * (c ^ 2 * (X + (Y + Z))) := mul_le_mul_of_nonneg_left (by nlinarith [sq_nonneg c, mul_nonneg (sq_nonneg c) x1, mul_nonneg (sq_nonneg c) x2]) k2
  have e3 : F * X ≤ F * (c ^ 2 * (X + (Y + Z))) := mul_le_mul_of_nonneg_left (by nlinarith [sq_nonneg c, mul_nonneg (sq_nonneg c) x2, mul_nonneg (sq_nonneg c) x3]) k3
  calc _ ≤ A * (L ^ 2 * Y) + (B * (L ^ 2 * Z) + F * X) := add_le_add g1 (add_le_add g2 g3)
    _ ≤ A * (c ^ 2 * (X + (Y + Z))) + (B * (c ^ 2 * (X + (Y + Z))) + F * (c ^ 2 * (X + (Y + Z)))) := add_le_add e1 (add_le_add e2 e3)
    _ = _ := by ring

theorem controlled_general (h1 : 1 + L ^ 2 ≤ c ^ 2) : Controlled c (fun _ => general nl 0 : Class (Two C D E) _) := by
  intro κ θ x s s'
  have e0 : general nl 0 θ x = join (linear (l11 θ) (map nl (q2 x)) + linearNB (l12 θ) (q1 x) + linearNB (l13 θ) (map nl (q1 x)) + linearNB (l14 θ) (q2 x))
    (linear (l21 θ) (q1 x) + linearNB (l22 θ) (q2 x) + linearNB (l23 θ) (map nl (q2 x)) + linearNB (l24 θ) (map nl (q1 x))) := by
    unfold general
    congr 1
    funext i c' e
    simp
  simp only [e0, dist_join, dist_two]
  simp only [Fintype.sum_sum_type]
  have x1 := sq_nonneg' (q1 x) s s'
  have x2 := sq_nonneg' (q2 x) s s'
  have n1 := mul_nonneg (sq_nonneg L) x1
  have n2 := mul_nonneg (sq_nonneg L) x2
  have p11 := par_nonneg (l11 θ)
  have p12 := par_nonneg (l12 θ)
  have p13 := par_nonneg (l13 θ)
  have p14 := par_nonneg (l14 θ)
  have p21 := par_nonneg (l21 θ)
  have p22 := par_nonneg (l22 θ)
  have p23 := par_nonneg (l23 θ)
  have p24 := par_nonneg (l24 θ)
  have g1 := sq_add _ _ s s' (add_nonneg (add_nonneg p11 p12) p13) p14 (add_nonneg (add_nonneg n2 x1) n1) x2 (sq_add _ _ s s' (add_nonneg p11 p12) p13 (add_nonneg n2 x1) n1
    (sq_add _ _ s s' p11 p12 n2 x1 (sq_linear_map hn (l11 θ) (q2 x) s s') (sq_linearNB (l12 θ) (q1 x) s s')) (sq_linearNB_map hn (l13 θ) (q1 x) s s')) (sq_linearNB (l14 θ) (q2 x) s s')
  have g2 := sq_add _ _ s s' (add_nonneg (add_nonneg p21 p22) p23) p24 (add_nonneg (add_nonneg x1 x2) n2) n1 (sq_add _ _ s s' (add_nonneg p21 p22) p23 (add_nonneg x1 x2) n2
    (sq_add _ _ s s' p21 p22 x1 x2 (sq_linear (l21 θ) (q1 x) s s') (sq_linearNB (l22 θ) (q2 x) s s')) (sq_linearNB_map hn (l23 θ) (q2 x) s s')) (sq_linearNB_map hn (l24 θ) (q1 x) s s')
  have e : ∀ A X Y : ℝ, 0 ≤ A → 0 ≤ X → 0 ≤ Y → A * ((1 + L ^ 2) * (X + Y)) ≤ A * (c ^ 2 * (X + Y)) := fun A X Y hA hX hY =>
    mul_le_mul_of_nonneg_left (mul_le_mul_of_nonneg_right h1 (by positivity)) hA
  have e1 := e _ _ _ (add_nonneg (add_nonneg (add_nonneg p11 p12) p13) p14) x1 x2
  have e2 := e _ _ _ (add_nonneg (add_nonneg (add_nonneg p21 p22) p23) p24) x1 x2
  refine le_trans (add_le_add g1 g2) (le_trans (le_trans (le_of_eq ?_) (add_le_add e1 e2)) (le_of_eq ?_))
  · ring
  · simp only [l11, l12, l13, l14, l21, l22, l23, l24]
    ring

end

/-! ## Nonlinearities -/

open Verif.Activation

theorem lip_of_deriv {f f' : ℝ → ℝ} {L : ℝ} (hd : ∀ x, HasDerivAt f (f' x) x) (hb : ∀ x, |f' x| ≤ L) (u v : ℝ) : |f u - f v| ≤ L * |u - v| := by
  have := Convex.norm_image_sub_le_of_norm_hasDerivWithin_le (f := f) (f' := f') (s := Set.univ) (C := L) (fun x _ => (hd x).hasDerivWithinAt) (fun x _ => hb x) convex_univ (Set.mem_univ v) (Set.mem_univ u)
  exact this

theorem lip_softmax (x : ℝ) : |dsoftmax 1 x| ≤ 2 := by
  unfold dsoftmax softmax
  have e1 := Real.exp_pos (-x * 1)
  have e2 := Real.exp_pos (1 * x)
  have h1 : |1 * (x * 1 / (Real.exp (-x * 1) + 1)) * 1 / (Real.exp (1 * x) + 1)| ≤ 1 := by
    have : 1 * (x * 1 / (Real.exp (-x * 1) + 1)) * 1 / (Real.exp (1 * x) + 1) = x / ((Real.exp (-x * 1) + 1) * (Real.exp (1 * x) + 1)) := by field_simp
    rw [this, abs_div, abs_of_pos (by positivity : 0 < (Real.exp (-x * 1) + 1) * (Real.exp (1 * x) + 1)), div_le_one (by positivity)]
    have g1 := Real.add_one_le_exp (-x * 1)
    have g2 := Real.add_one_le_exp (1 * x)
    have g3 := mul_pos e1 e2
    rw [abs_le]
    constructor <;> nlinarith
  have h2 : |1 / (Real.exp (-x * 1) + 1)| ≤ 1 := by
    rw [abs_of_pos (by positivity), div_le_one (by positivity)]
    linarith
  exact (abs_add_le _ _).trans (by linarith)

/-- The nonlinearity of a name changes differences of numbers at most by a factor of 1, 2 for `softmax`. -/
theorem lip_pair (n : Name) (u v : ℝ) : |(pair n).1 u - (pair n).1 v| ≤ (if n = .softmax then 2 else 1) * |u - v| := by
  cases n with
  | relu => simpa [pair, relu] using abs_max_sub_max_le_abs u v 0
  | tanh => exact lip_of_deriv (L := 1) hasDerivAt_tanh (fun x => by have := C30_monotone .tanh (by simp) x; exact abs_le.2 ⟨by have := this.1; simp only [pair] at this; linarith, this.2⟩) u v
  | identity => simp [pair, identity]
  | sigmoid =>
    refine lip_of_deriv (L := 1) hasDerivAt_sigmoid (fun x => ?_) u v
    have h1 : 0 < sigmoid x := by unfold sigmoid; positivity
    have h2 : sigmoid x < 1 := by
      unfold sigmoid
      rw [div_lt_one (by positivity)]
      linarith [Real.exp_pos (-x)]
    rw [abs_le]
    constructor <;> nlinarith
  | softmax => exact lip_of_deriv (L := 2) (C30_softmax 1) lip_softmax u v

end Verif.Sensitivity
