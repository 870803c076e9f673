import Verif.Ordering.Props
import Verif.Capacity.Props
import Verif.Activation.Model
import Mathlib.Analysis.SpecialFunctions.Trigonometric.Deriv

/-!
# C102: with one additional dimension the order of numbers can be reversed
-/

namespace Verif.Ordering
open Set Verif Verif.Tensor Verif.Shooting Verif.Evolution Verif.Models Verif.Converge Verif.Whole

/-- The up-down class with one feature, one additional dimension and the nonlinearity `identity`. -/
abbrev turning : Class (Two (Fin 1) (Fin 1) (Fin 1)) (UpDownPar (Fin 1) (Fin 1)) := fun _ => upDown Activation.identity

/-- The parameters of a rotation by half a turn in unit time. -/
noncomputable def half : UpDownPar (Fin 1) (Fin 1) → ℝ
  | .inl (_, some _) => - Real.pi
  | .inr (_, some _) => Real.pi
  | _ => 0

theorem regular_turning : Regular turning :=
  (C69_classes (C := Fin 1) (D := Fin 1) (E := Fin 1) (nl := Activation.identity) contDiff_id ⟨1, zero_le_one, fun x => by simp [Activation.identity]⟩).2.1

/-- The samples turn. -/
noncomputable def turned {B : Nat} (x : Fin B → ℝ) (t : ℝ) : Fin B × Two (Fin 1) (Fin 1) (Fin 1) → ℝ
  | (s, .inl _) => x s * Real.cos (Real.pi * t)
  | (s, .inr _) => x s * Real.sin (Real.pi * t)

theorem turned_deriv {B : Nat} (x : Fin B → ℝ) (t : ℝ) : HasDerivAt (turned x) (turning (Fin B) half (turned x t)) t := by
  rw [hasDerivAt_pi]
  have hl : HasDerivAt (fun t : ℝ => Real.pi * t) Real.pi t := by simpa using (hasDerivAt_id t).const_mul Real.pi
  rintro ⟨s, (⟨c, d⟩ | ⟨c, d⟩)⟩
  · refine ((hl.cos).const_mul (x s)).congr_deriv ?_
    simp [turning, upDown, join, linear, map, q2, half, turned, Activation.identity]
    ring
  · refine ((hl.sin).const_mul (x s)).congr_deriv ?_
    simp [turning, upDown, join, linear, q1, half, turned]
    ring

/-- C102: what the additional dimensions are for.  With one additional dimension (up-down class, `identity`, RNN mode, at least two particles) there are particles and costates for which the exact network maps every sample
`x` to `-x` in unit time: it reverses the order of all batches. -/
theorem C102_reverse (w : UpDownPar (Fin 1) (Fin 1) → Option ℝ) (hw : ∀ r, weight w r ≠ 0) {n : Nat} (hn : 2 ≤ n) :
    ∃ q p : Fin n × Two (Fin 1) (Fin 1) (Fin 1) → ℝ, ∀ (B : Nat) (x : Fin B → ℝ),
      ∃ y : ℝ → Sys2 (Fin n) (Fin B) _ _, Solves (Evolution.field2 turning turning (Evolution.given turning w fun _ => directParameters (turning (Fin n)) w 0 q p)) 0 1 y ∧
        (y 0).1 = q ∧ (y 0).2.1 = p ∧ (∀ s, (y 0).2.2 (s, .inl (0, 0)) = x s ∧ (y 0).2.2 (s, .inr (0, 0)) = 0) ∧ ∀ s, (y 1).2.2 (s, .inl (0, 0)) = - x s := by
  obtain ⟨q, p, hqp⟩ := (Capacity.C100_upDown (ι := Fin n) (C := Fin 1) (D := Fin 1) (E := Fin 1) (nl := Activation.identity) continuous_id (show Activation.identity 0 < Activation.identity 1 from zero_lt_one) 0 w hw).1.2 (by simp; omega) half
  refine ⟨q, p, fun B x => ?_⟩
  have : Nonempty (Fin n) := ⟨⟨0, by omega⟩⟩
  rw [show directParameters (turning (Fin n)) w 0 q p = half from hqp 0]
  obtain ⟨y, hy, hya, _⟩ := C69_global_rnn_sizes (ι := Fin n) (β := Fin B) regular_turning regular_turning w half zero_le_one (q, p, turned x 0)
  refine ⟨fun t => ((y t).1, (y t).2.1, turned x t), fun t ht => ?_, by show (y 0).1 = q; rw [hya], by show (y 0).2.1 = p; rw [hya], fun s => ⟨by simp [turned], by simp [turned]⟩, fun s => by simp [turned]⟩
  have h1 := hy t ht
  have h2 : HasDerivWithinAt (fun t => (y t).1) (turning (Fin n) half (y t).1) (Icc 0 1) t := h1.fst
  have h3 := h1.snd.fst
  exact h2.prodMk (h3.prodMk (turned_deriv x t).hasDerivWithinAt)

end Verif.Ordering
