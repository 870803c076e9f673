import Verif.Order.Props

/-!
# C94: the orders cannot be improved
-/

namespace Verif.Order
open Set Verif Verif.Flow Verif.Whole Verif.Evolution Verif.Converge

section
variable {V : Type} [AddCommGroup V] [Module ℝ V]

/-- `m` steps of length `h` after `t`. -/
def uniform (t h : ℝ) : ℕ → List ℝ
  | 0 => []
  | m + 1 => (t + h) :: uniform (t + h) h m

theorem uniform_eq (h : ℝ) (m : ℕ) (t : ℝ) : t :: uniform t h m = (List.range (m + 1)).map fun i : ℕ => (i : ℝ) * h + t := by
  induction m generalizing t with
  | zero => simp [uniform]
  | succ m ih =>
    rw [List.range_succ_eq_map, List.map_cons, List.map_map]
    simp only [uniform]
    rw [ih]
    congr 1
    · simp
    · refine List.map_congr_left fun i _ => ?_
      simp only [Function.comp]
      push_cast
      ring

/-- Steps that miss the right increment by `c h ^ (p + 1)`, each in the same direction. -/
theorem outputs_uniform {Φ : ℝ → ℝ → V → V} {h : ℝ} (hh : 0 < h) {c : ℝ} {p : ℕ} {v : V} (hΦ : ∀ t y, h • Φ h t y = ((t + h) ^ (p + 1) - t ^ (p + 1) - c * h ^ (p + 1)) • v) (m : ℕ) (t : ℝ) (y : V) :
    outputs Φ t y (uniform t h (m + 1)) [t + (m + 1) * h] = [y + ((t + (m + 1) * h) ^ (p + 1) - t ^ (p + 1) - (m + 1) * (c * h ^ (p + 1))) • v] := by
  induction m generalizing t y with
  | zero =>
    simp only [uniform, outputs, Nat.cast_zero, zero_add, one_mul, add_sub_cancel_left]
    rw [List.takeWhile_cons_of_pos (by simp), List.takeWhile_nil, List.map_cons, List.map_nil, List.append_nil, between, if_neg (by linarith), if_pos rfl, hΦ]
  | succ m ih =>
    have hm : 0 < ((m : ℝ) + 1) * h := by positivity
    have e : t + ((m + 1 : ℕ) + 1 : ℝ) * h = t + h + (m + 1) * h := by push_cast; ring
    rw [uniform, outputs]
    rw [List.takeWhile_cons_of_neg (by simp; linarith), List.dropWhile_cons_of_neg (by simp; linarith), List.map_nil, List.nil_append, add_sub_cancel_left, hΦ, e, ih, add_assoc, ← add_smul]
    congr 3
    push_cast
    ring
end

/-- The times `0, h, ..., n h` for `h = 1 / n`. -/
theorem stepGrid_whole {n : ℕ} (hn : 0 < n) (ts : List ℝ) (hl : (0 :: ts).getLast? = some 1) : stepGrid (1 / n) (0 :: ts) = 0 :: uniform 0 (1 / n) n := by
  have hn' : (n : ℝ) ≠ 0 := by positivity
  have e1 : (0 :: ts).getLast (by simp) = (1 : ℝ) := by
    rw [List.getLast?_eq_some_getLast (by simp)] at hl
    exact Option.some.inj hl
  have e2 : ⌈((1 : ℝ) - 0) / (1 / n) + 1⌉.toNat = n + 1 := by
    have : ((1 : ℝ) - 0) / (1 / n) + 1 = ((n + 1 : ℕ) : ℝ) := by field_simp; push_cast; ring
    rw [this, Int.ceil_natCast]
    rfl
  unfold stepGrid
  dsimp only
  rw [e1, e2, uniform_eq]
  have e3 : ((List.range (n + 1)).map fun i : ℕ => (i : ℝ) * (1 / n) + 0).getLast? = some 1 := by
    rw [List.range_succ, List.map_append, List.map_cons, List.map_nil, List.getLast?_concat]
    congr 1
    field_simp
    ring
  rw [e3]
  simp

/-- The equation whose solutions are `t ^ (p + 1)`, times a vector, up to constants. -/
def power {V : Type} [AddCommGroup V] [Module ℝ V] (p : ℕ) (v : V) (t : ℝ) (_ : V) : V := ((p + 1 : ℝ) * t ^ p) • v

variable {ι β K K' : Type} [Fintype ι] [Fintype β] [Fintype K] [Fintype K']

theorem power_solves (p : ℕ) (v z : Sys2 ι β K K') (a b : ℝ) : Solves (power p v) a b fun t => z + t ^ (p + 1) • v := by
  intro t _
  have h1 : HasDerivAt (fun t : ℝ => t ^ (p + 1)) ((p + 1 : ℝ) * t ^ p) t := by simpa using hasDerivAt_pow (p + 1) t
  exact ((h1.smul_const v).const_add z).hasDerivWithinAt

/-- The part of `C94_sharp` for one method. -/
theorem sharp {T : Tableau} {p : ℕ} {c : ℝ} (hT : ∀ (v : Sys2 ι β K K') (h t : ℝ) (y : Sys2 ι β K K'), h • increment T (power p v) h t y = ((t + h) ^ (p + 1) - t ^ (p + 1) - c * h ^ (p + 1)) • v)
    (v z : Sys2 ι β K K') {n : ℕ} (hn : 0 < n) : ∃ Y, runSys (power p v) (solver T (stepGrid (1 / n)) [0, 1]) [z] = .ok [z, Y] ∧ z + v - Y = (c * (1 / n) ^ p) • v := by
  obtain ⟨m, rfl⟩ := Nat.exists_eq_succ_of_ne_zero hn.ne'
  have hh : (0 : ℝ) < 1 / (m.succ : ℕ) := by positivity
  have hg := stepGrid_whole hn [1] (by simp)
  have hs := stepGrid_suits hh 0 [1] (by simp)
  obtain ⟨g, h1, h2, h3⟩ := hs
  have hg' : g = uniform 0 (1 / (m.succ : ℕ)) m.succ := by
    rw [hg] at h1
    exact (List.cons.inj h1).2.symm
  refine ⟨z + ((1 : ℝ) ^ (p + 1) - 0 ^ (p + 1) - (m + 1) * (c * (1 / (m.succ : ℕ)) ^ (p + 1))) • v, (run_solver (power p v) T _ 0 [1] g z ((increasing_iff _).2 (by simp)) h1 h2).trans ?_, ?_⟩
  · have hu := outputs_uniform hh (hT v _) m 0 z
    have e : (0 : ℝ) + (m + 1) * (1 / (m.succ : ℕ)) = 1 := by push_cast; field_simp; ring
    rw [e] at hu
    rw [hg', hu]
  · have hz : (0 : ℝ) ^ (p + 1) = 0 := zero_pow (by omega)
    have e : ((m : ℝ) + 1) * (c * (1 / (m.succ : ℕ)) ^ (p + 1)) = c * (1 / (m.succ : ℕ)) ^ p := by
      rw [pow_succ]
      push_cast
      field_simp
    rw [hz, one_pow, e]
    module

/-- C94: the orders are what they are and not more.  For the equation with the solution `z + t ^ (p + 1) v` the error at the end of `n` steps of length `h = 1 / n` is exactly `h` with Euler's method, `h² / 4`
with the midpoint rule, `- h⁴ / 24` with the classical method of Runge and Kutta and `- h⁴ / 54` with the 3/8 rule, each time in the direction `v`. -/
theorem C94_sharp (v z : Sys2 ι β K K') {n : ℕ} (hn : 0 < n) :
    (∃ Y, runSys (power 1 v) (solver Converge.euler (stepGrid (1 / n)) [0, 1]) [z] = .ok [z, Y] ∧ z + v - Y = (1 * (1 / n : ℝ) ^ 1) • v) ∧
    (∃ Y, runSys (power 2 v) (solver Converge.midpoint (stepGrid (1 / n)) [0, 1]) [z] = .ok [z, Y] ∧ z + v - Y = (1 / 4 * (1 / n : ℝ) ^ 2) • v) ∧
    (∃ Y, runSys (power 4 v) (solver Converge.rk4 (stepGrid (1 / n)) [0, 1]) [z] = .ok [z, Y] ∧ z + v - Y = (-1 / 24 * (1 / n : ℝ) ^ 4) • v) ∧
    (∃ Y, runSys (power 4 v) (solver rk38 (stepGrid (1 / n)) [0, 1]) [z] = .ok [z, Y] ∧ z + v - Y = (-1 / 54 * (1 / n : ℝ) ^ 4) • v) := by
  refine ⟨sharp ?_ v z hn, sharp ?_ v z hn, sharp ?_ v z hn, sharp ?_ v z hn⟩ <;> intro v h t y
  · simp only [Converge.euler, increment, slopes, comb, power, List.nil_append, List.zipWith_cons_cons, List.zipWith_nil_right, List.sum_cons, List.sum_nil]
    push_cast
    module
  · simp only [Converge.midpoint, increment, slopes, comb, power, List.nil_append, List.cons_append, List.zipWith_cons_cons, List.zipWith_nil_right, List.sum_cons, List.sum_nil]
    push_cast
    module
  · simp only [Converge.rk4, increment, slopes, comb, power, List.nil_append, List.cons_append, List.zipWith_cons_cons, List.zipWith_nil_right, List.sum_cons, List.sum_nil]
    push_cast
    module
  · simp only [rk38, increment, slopes, comb, power, List.nil_append, List.cons_append, List.zipWith_cons_cons, List.zipWith_nil_right, List.sum_cons, List.sum_nil]
    push_cast
    module

/-- C94: between grid points there is no order higher than two, whatever the method.  For the equation with the solution `z + t² v` the methods of higher order are exact at the grid points, but in the middle of
the first step of length `h = 1 / n` the output misses the solution by exactly `h² / 4`, because the library interpolates linearly. -/
theorem C94_interpolation_sharp (v z : Sys2 ι β K K') {n : ℕ} (hn : 0 < n) (T : Tableau) (hT : T = Converge.midpoint ∨ T = Converge.rk4 ∨ T = rk38) :
    ∃ Y, runSys (power 1 v) (solver T (stepGrid (1 / n)) [0, 1 / (2 * n), 1]) [z] = .ok [z, Y, z + v] ∧ Y - (z + (1 / (2 * n) : ℝ) ^ 2 • v) = (1 / 4 * (1 / n : ℝ) ^ 2) • v := by
  have hΦ : ∀ h t y, h • increment T (power 1 v) h t y = ((t + h) ^ (1 + 1) - t ^ (1 + 1) - 0 * h ^ (1 + 1)) • v := by
    intro h t y
    rcases hT with rfl | rfl | rfl
    · simp only [Converge.midpoint, increment, slopes, comb, power, List.nil_append, List.cons_append, List.zipWith_cons_cons, List.zipWith_nil_right, List.sum_cons, List.sum_nil]
      push_cast
      module
    · simp only [Converge.rk4, increment, slopes, comb, power, List.nil_append, List.cons_append, List.zipWith_cons_cons, List.zipWith_nil_right, List.sum_cons, List.sum_nil]
      push_cast
      module
    · simp only [rk38, increment, slopes, comb, power, List.nil_append, List.cons_append, List.zipWith_cons_cons, List.zipWith_nil_right, List.sum_cons, List.sum_nil]
      push_cast
      module
  obtain ⟨m, rfl⟩ := Nat.exists_eq_succ_of_ne_zero hn.ne'
  have hh : (0 : ℝ) < 1 / (m.succ : ℕ) := by positivity
  have hhalf : (1 : ℝ) / (2 * (m.succ : ℕ)) = (1 / (m.succ : ℕ)) / 2 := by field_simp
  have hm1 : (1 : ℝ) / (m.succ : ℕ) ≤ 1 := by
    rw [div_le_one (by positivity)]
    push_cast
    linarith [(Nat.cast_nonneg m : (0 : ℝ) ≤ m)]
  have hinc : [(0 : ℝ), 1 / (2 * (m.succ : ℕ)), 1].Pairwise (· < ·) := by
    rw [hhalf]
    simp only [List.pairwise_cons, List.mem_cons, List.not_mem_nil, or_false, forall_eq_or_imp, forall_eq, List.Pairwise.nil, and_true, IsEmpty.forall_iff, implies_true]
    refine ⟨⟨by linarith, one_pos⟩, by linarith⟩
  have hg := stepGrid_whole hn [1 / (2 * (m.succ : ℕ)), 1] (by simp)
  obtain ⟨g, h1, h2, h3⟩ := stepGrid_suits hh 0 [1 / (2 * (m.succ : ℕ)), 1] hinc
  have hg' : g = uniform 0 (1 / (m.succ : ℕ)) m.succ := by
    rw [hg] at h1
    exact (List.cons.inj h1).2.symm
  have e : (0 : ℝ) + (m + 1) * (1 / (m.succ : ℕ)) = 1 := by push_cast; field_simp; ring
  rw [hhalf] at hinc h1 h2 ⊢
  generalize (1 : ℝ) / (m.succ : ℕ) = h at *
  refine ⟨z + (1 / 2 : ℝ) • (h ^ 2 • v), (run_solver (power 1 v) T _ 0 _ g z ((increasing_iff _).2 hinc) h1 h2).trans ?_, ?_⟩
  · rw [hg']
    have hfirst : outputs (increment T (power 1 v)) 0 z (uniform 0 h m.succ) [h / 2, 1] =
        between 0 (0 + h) z (z + (0 + h - 0) • increment T (power 1 v) (0 + h - 0) 0 z) (h / 2) :: outputs (increment T (power 1 v)) 0 z (uniform 0 h m.succ) [1] := by
      simp only [uniform, outputs]
      rw [List.takeWhile_cons_of_pos (by simp; linarith), List.dropWhile_cons_of_pos (by simp; linarith), List.map_cons, List.cons_append]
    have hu := outputs_uniform hh (hΦ _) m 0 z
    rw [e] at hu
    rw [hfirst, hu, zero_add, sub_zero, hΦ, between, if_neg (by linarith), if_neg (by linarith)]
    have hq : (h / 2 - 0) / (h - 0) = 1 / 2 := by rw [sub_zero, sub_zero]; field_simp
    rw [hq]
    congr 3
    · congr 1
      module
    · congr 1
      module
  · module

end Verif.Order
