import Verif.Hooks.Lemmas
import Mathlib.Algebra.Order.Chebyshev

/-!
# Singular values
-/

namespace Verif.Hooks

variable {m n r : ℕ}

/-- The squared length of a combination of orthonormal columns. -/
theorem sum_sq_orthonormal (U : Fin m → Fin r → ℝ) (hU : ∀ i j, ∑ x, U x i * U x j = if i = j then 1 else 0) (c : Fin r → ℝ) :
    ∑ x, (∑ i, U x i * c i) ^ 2 = ∑ i, c i ^ 2 := by
  have e : ∀ x, (∑ i, U x i * c i) ^ 2 = ∑ i, ∑ j, c i * c j * (U x i * U x j) := by
    intro x
    rw [sq, Finset.sum_mul_sum]
    exact Finset.sum_congr rfl fun i _ => Finset.sum_congr rfl fun j _ => by ring
  simp only [e]
  rw [Finset.sum_comm]
  refine Finset.sum_congr rfl fun i _ => ?_
  rw [Finset.sum_comm]
  simp only [← Finset.mul_sum, hU, mul_ite, mul_one, mul_zero, Finset.sum_ite_eq, Finset.mem_univ, if_true]
  ring

/-- Bessel's inequality. -/
theorem bessel (V : Fin n → Fin r → ℝ) (hV : ∀ i j, ∑ x, V x i * V x j = if i = j then 1 else 0) (x : Fin n → ℝ) :
    ∑ i, (∑ y, V y i * x y) ^ 2 ≤ ∑ y, x y ^ 2 := by
  have h0 : 0 ≤ ∑ y, (x y - ∑ i, V y i * ∑ z, V z i * x z) ^ 2 := Finset.sum_nonneg fun _ _ => sq_nonneg _
  have e : ∑ y, (x y - ∑ i, V y i * ∑ z, V z i * x z) ^ 2 =
      ∑ y, x y ^ 2 - 2 * ∑ y, x y * (∑ i, V y i * ∑ z, V z i * x z) + ∑ y, (∑ i, V y i * ∑ z, V z i * x z) ^ 2 := by
    rw [Finset.mul_sum, ← Finset.sum_sub_distrib, ← Finset.sum_add_distrib]
    exact Finset.sum_congr rfl fun y _ => by ring
  have e2 : ∑ y, x y * (∑ i, V y i * ∑ z, V z i * x z) = ∑ i, (∑ z, V z i * x z) ^ 2 := by
    simp only [Finset.mul_sum]
    rw [Finset.sum_comm]
    refine Finset.sum_congr rfl fun i _ => ?_
    rw [sq, Finset.sum_mul_sum]
    exact Finset.sum_congr rfl fun y _ => Finset.sum_congr rfl fun z _ => by ring
  rw [e, e2, sum_sq_orthonormal V hV] at h0
  linarith

variable {a : Fin m → Fin n → ℝ} {s : Fin r → ℝ}

/-- The sum of squares of the entries is the sum of squares of the singular values. -/
theorem SingularValues.sum_sq (h : SingularValues a s) : ∑ i, ∑ j, a i j ^ 2 = ∑ i, s i ^ 2 := by
  obtain ⟨U, V, hU, hV, e⟩ := h.factors
  have e1 : ∀ x, ∑ y, a x y ^ 2 = ∑ i, (U x i * s i) ^ 2 := by
    intro x
    rw [← sum_sq_orthonormal V hV fun i => U x i * s i]
    refine Finset.sum_congr rfl fun y _ => ?_
    rw [e]
    congr 1
    exact Finset.sum_congr rfl fun i _ => by ring
  simp only [e1]
  rw [Finset.sum_comm]
  refine Finset.sum_congr rfl fun i _ => ?_
  have h2 : ∀ x, (U x i * s i) ^ 2 = (U x i * U x i) * s i ^ 2 := fun x => by ring
  simp only [h2]
  rw [← Finset.sum_mul, hU, if_pos rfl, one_mul]

/-- The image of a vector. -/
theorem SingularValues.image (h : SingularValues a s) : ∃ V : Fin n → Fin r → ℝ, (∀ i j, ∑ x, V x i * V x j = if i = j then 1 else 0) ∧
    ∀ x : Fin n → ℝ, ∑ i, (∑ j, a i j * x j) ^ 2 = ∑ k, (s k * ∑ y, V y k * x y) ^ 2 := by
  obtain ⟨U, V, hU, hV, e⟩ := h.factors
  refine ⟨V, hV, fun x => ?_⟩
  rw [← sum_sq_orthonormal U hU]
  refine Finset.sum_congr rfl fun i _ => ?_
  congr 1
  simp only [e, Finset.sum_mul, Finset.mul_sum]
  rw [Finset.sum_comm]
  exact Finset.sum_congr rfl fun k _ => Finset.sum_congr rfl fun y _ => by ring

theorem sum_sq_le_sq_sum (s : Fin r → ℝ) (h : ∀ i, 0 ≤ s i) : ∑ i, s i ^ 2 ≤ (∑ i, s i) ^ 2 :=
  Finset.sum_sq_le_sq_sum_of_nonneg fun i _ => h i

/-- The largest singular value is the largest stretch of a vector, and it is attained. -/
theorem SingularValues.stretch (h : SingularValues a s) (hr : 0 < r) :
    (∀ x : Fin n → ℝ, ∑ i, (∑ j, a i j * x j) ^ 2 ≤ s ⟨0, hr⟩ ^ 2 * ∑ j, x j ^ 2) ∧
    ∃ x : Fin n → ℝ, ∑ j, x j ^ 2 = 1 ∧ ∑ i, (∑ j, a i j * x j) ^ 2 = s ⟨0, hr⟩ ^ 2 := by
  obtain ⟨V, hV, e⟩ := h.image
  constructor
  · intro x
    rw [e]
    calc ∑ k, (s k * ∑ y, V y k * x y) ^ 2 ≤ ∑ k, s ⟨0, hr⟩ ^ 2 * (∑ y, V y k * x y) ^ 2 := by
          refine Finset.sum_le_sum fun k _ => ?_
          rw [mul_pow]
          refine mul_le_mul_of_nonneg_right ?_ (sq_nonneg _)
          exact pow_le_pow_left₀ (h.nonneg k) (h.decreasing _ _ (Nat.zero_le _)) 2
      _ = s ⟨0, hr⟩ ^ 2 * ∑ k, (∑ y, V y k * x y) ^ 2 := by rw [Finset.mul_sum]
      _ ≤ _ := mul_le_mul_of_nonneg_left (bessel V hV x) (sq_nonneg _)
  · refine ⟨fun y => V y ⟨0, hr⟩, ?_, ?_⟩
    · have := hV ⟨0, hr⟩ ⟨0, hr⟩
      rw [if_pos rfl] at this
      rw [← this]
      exact Finset.sum_congr rfl fun _ _ => sq _
    · rw [e]
      have : ∀ k, (s k * ∑ y, V y k * V y ⟨0, hr⟩) ^ 2 = if k = ⟨0, hr⟩ then s k ^ 2 else 0 := by
        intro k
        rw [hV]
        split <;> simp
      simp only [this, Finset.sum_ite_eq', Finset.mem_univ, if_true]

end Verif.Hooks
