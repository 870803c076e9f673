import Verif.Datasets.Props
import Verif.Training.Model
import Mathlib.Analysis.SpecialFunctions.ExpDeriv
import Mathlib.Analysis.SpecialFunctions.Trigonometric.Deriv
import Mathlib.Analysis.Calculus.MeanValue
import Mathlib.Analysis.Calculus.Deriv.MeanValue
import Mathlib.Tactic.Linarith
import Mathlib.Tactic.Ring
import Mathlib.Tactic.Positivity
import Mathlib.Tactic.FieldSimp

/-!
# C89: the system behind the data of `spiral.py`

`DiffEqRHS` and `generate_data` (lines 204-261).  The trajectory of the program is what the integrator makes of the equation; here it is the exact solution.
-/

namespace Verif.Datasets
open Verif Verif.Batches

variable {K : Type}

/-- `DiffEqRHS.forward`, lines 217-221, for one row: `y A` or `y³ A`. -/
def diffEqRHS [Field K] (A : (K × K) × K × K) (linear : Bool) (y : K × K) : K × K :=
  let v := if linear then y else (y.1 ^ 3, y.2 ^ 3)
  (v.1 * A.1.1 + v.2 * A.2.1, v.1 * A.1.2 + v.2 * A.2.2)

/-- `d['A']`, line 248. -/
def dataA [Field K] : (K × K) × K × K := ((-(1 / 10), 2), (-2, -(1 / 10)))

/-- `d['y0']`, line 246. -/
def dataStart [Field K] : K × K := (2, 0)

/-- `d['t']`, line 247. -/
def dataTimes [Field K] (n : Nat) : List K := Training.linspace 0 10 n

/-- A solution of `y' = f(y)` at all times. -/
def Solves (f : ℝ × ℝ → ℝ × ℝ) (y : ℝ → ℝ × ℝ) : Prop := ∀ t, HasDerivAt (fun t => (y t).1) (f (y t)).1 t ∧ HasDerivAt (fun t => (y t).2) (f (y t)).2 t

/-- C89: with `--linear` the data lie on the logarithmic spiral with radius `2 exp(-t/10)` and angle `2 t`: this is the only solution of the equation with the starting point of the program. -/
theorem C89_linear_spiral (y : ℝ → ℝ × ℝ) :
    (Solves (diffEqRHS dataA true) y ∧ y 0 = dataStart) ↔ y = fun t => (2 * Real.exp (-(t / 10)) * Real.cos (2 * t), 2 * Real.exp (-(t / 10)) * Real.sin (2 * t)) := by
  have hsol : Solves (diffEqRHS dataA true) fun t => (2 * Real.exp (-(t / 10)) * Real.cos (2 * t), 2 * Real.exp (-(t / 10)) * Real.sin (2 * t)) := by
    intro t
    have he : HasDerivAt (fun t => 2 * Real.exp (-(t / 10))) (2 * (Real.exp (-(t / 10)) * -(1 / 10))) t := by
      have h1 : HasDerivAt (fun t : ℝ => -(t / 10)) (-(1 / 10)) t := ((hasDerivAt_id t).div_const 10).neg
      exact h1.exp.const_mul 2
    have h2 : HasDerivAt (fun t : ℝ => 2 * t) 2 t := by simpa using (hasDerivAt_id t).const_mul 2
    have hc := he.mul h2.cos
    have hs := he.mul h2.sin
    refine ⟨hc.congr_deriv ?_, hs.congr_deriv ?_⟩
    · simp only [diffEqRHS, dataA, if_true]; ring
    · simp only [diffEqRHS, dataA, if_true]; ring
  constructor
  · rintro ⟨h, h0⟩
    have hd : ∀ t, HasDerivAt (fun t => (((y t).1 - 2 * Real.exp (-(t / 10)) * Real.cos (2 * t)) ^ 2 + ((y t).2 - 2 * Real.exp (-(t / 10)) * Real.sin (2 * t)) ^ 2) * Real.exp (t / 5)) 0 t := by
      intro t
      have h1 := ((h t).1.sub (hsol t).1).pow 2
      have h2 := ((h t).2.sub (hsol t).2).pow 2
      have h3 : HasDerivAt (fun t : ℝ => Real.exp (t / 5)) (Real.exp (t / 5) * (1 / 5)) t := ((hasDerivAt_id t).div_const 5).exp
      refine ((h1.add h2).mul h3).congr_deriv ?_
      simp only [diffEqRHS, dataA, if_true, Pi.add_apply, Pi.pow_apply, Pi.sub_apply]
      push_cast
      ring
    have hconst := is_const_of_deriv_eq_zero (fun t => (hd t).differentiableAt) (fun t => (hd t).deriv)
    funext t
    have := hconst t 0
    simp only [h0, dataStart] at this
    simp only [zero_div, neg_zero, Real.exp_zero, mul_zero, Real.cos_zero, mul_one, sub_self, Real.sin_zero] at this
    have he := Real.exp_pos (t / 5)
    have hz : ((y t).1 - 2 * Real.exp (-(t / 10)) * Real.cos (2 * t)) ^ 2 + ((y t).2 - 2 * Real.exp (-(t / 10)) * Real.sin (2 * t)) ^ 2 = 0 := by
      rcases mul_eq_zero.1 (this.trans (by ring)) with h | h
      · exact h
      · exact absurd h he.ne'
    have p1 := sq_nonneg ((y t).1 - 2 * Real.exp (-(t / 10)) * Real.cos (2 * t))
    have p2 := sq_nonneg ((y t).2 - 2 * Real.exp (-(t / 10)) * Real.sin (2 * t))
    have q1 := pow_eq_zero_iff (two_ne_zero) |>.1 (le_antisymm (by linarith) p1)
    have q2 := pow_eq_zero_iff (two_ne_zero) |>.1 (le_antisymm (by linarith) p2)
    exact Prod.ext (by linarith) (by linarith)
  · rintro rfl
    refine ⟨hsol, ?_⟩
    simp [dataStart]

/-- C89: without `--linear` the quantity `y₁⁴ + y₂⁴` decreases along every solution, so the data of the program stay where `y₁⁴ + y₂⁴ ≤ 16`. -/
theorem C89_cubic_bounded (y : ℝ → ℝ × ℝ) (h : Solves (diffEqRHS dataA false) y) :
    Antitone (fun t => (y t).1 ^ 4 + (y t).2 ^ 4) ∧ (y 0 = dataStart → ∀ t, 0 ≤ t → (y t).1 ^ 4 + (y t).2 ^ 4 ≤ 16) := by
  have hd : ∀ t, HasDerivAt (fun t => (y t).1 ^ 4 + (y t).2 ^ 4) (-(2 / 5) * ((y t).1 ^ 6 + (y t).2 ^ 6)) t := by
    intro t
    refine (((h t).1.pow 4).add ((h t).2.pow 4)).congr_deriv ?_
    simp only [diffEqRHS, dataA, Bool.false_eq_true, if_false]
    push_cast
    ring
  have ha : Antitone (fun t => (y t).1 ^ 4 + (y t).2 ^ 4) := by
    apply antitone_of_deriv_nonpos (fun t => (hd t).differentiableAt)
    intro t
    rw [(hd t).deriv]
    have h1 : 0 ≤ (y t).1 ^ 6 := by positivity
    have h2 : 0 ≤ (y t).2 ^ 6 := by positivity
    nlinarith
  refine ⟨ha, fun h0 t ht => ?_⟩
  have := ha ht
  simp only [h0, dataStart] at this
  linarith [this]

/-- C89: what a network has to learn from a window.  If the trajectory consists of the values of a solution of an equation `y' = f(y)` at the times of the program, then the points of each window are the values of a
solution of the same equation, at the times that come with the window, started at the initial value that comes with the window. -/
theorem C89_windows_solve (f : ℝ × ℝ → ℝ × ℝ) (y : ℝ → ℝ × ℝ) (hy : Solves f y) (n : Nat) (hn : 2 ≤ n) (u : List Nat)
    (d : Traj (ℝ × ℝ) ℝ) (hd : d = ⟨y 0, dataTimes n, (dataTimes n).map y, u⟩) (b : Nat) (hb : 0 < b) (ss : List Nat) (batch : List (ℝ × ℝ) × Option (List ℝ) × List (List (ℝ × ℝ)))
    (h : Windows d b ss batch) (j : Nat) (hj : j < ss.length) :
    ∃ (z : ℝ → ℝ × ℝ) (times : List ℝ), Solves f z ∧ batch.2.1 = some times ∧ times.length = b ∧ batch.1[j]? = some (z 0) ∧
      ∀ k < b, ∃ row tk, batch.2.2[k]? = some row ∧ times[k]? = some tk ∧ row[j]? = some (z tk) := by
  subst hd
  have ht : ∀ i < n, (dataTimes (K := ℝ) n)[i]? = some (10 / ((n : ℝ) - 1) * (i : ℝ)) := by
    intro i hi
    unfold dataTimes Training.linspace
    rw [if_neg (by omega), List.getElem?_map, List.getElem?_range hi, Option.map_some]
    congr 1
    ring
  have hlen : (dataTimes (K := ℝ) n).length = n := by
    unfold dataTimes Training.linspace
    rw [if_neg (by omega)]
    simp
  have hin := h.inside ss[j] (List.getElem_mem hj)
  simp only [List.length_map, hlen] at hin
  have hval : ∀ i < n, ((dataTimes (K := ℝ) n).map y)[i]? = some (y (10 / ((n : ℝ) - 1) * (i : ℝ))) := by
    intro i hi
    rw [List.getElem?_map, ht i hi]; rfl
  refine ⟨fun t => y (t + 10 / ((n : ℝ) - 1) * (ss[j] : ℝ)), (dataTimes n).take b, ?_, h.times, ?_, ?_, ?_⟩
  · intro t
    have e := hy (t + 10 / ((n : ℝ) - 1) * (ss[j] : ℝ))
    exact ⟨e.1.comp_add_const t _, e.2.comp_add_const t _⟩
  · rw [List.length_take, hlen]; omega
  · have e := congrArg (·[j]?) h.starts
    simp only [List.getElem?_map, List.getElem?_eq_getElem hj, Option.map_some] at e
    have hv := hval ss[j] (by omega)
    rw [List.getElem?_map] at hv
    rw [hv] at e
    cases hb1 : batch.1[j]? with
    | none => rw [hb1] at e; cases e
    | some v =>
      rw [hb1] at e
      simp only [Option.map_some, Option.some.injEq] at e
      rw [e]
      simp only [zero_add]
  · intro k hk
    obtain ⟨row, r1, r2⟩ := h.points k hk
    refine ⟨row, 10 / ((n : ℝ) - 1) * (k : ℝ), r1, ?_, ?_⟩
    · rw [List.getElem?_take, if_pos hk, ht k (by omega)]
    · have e := congrArg (·[j]?) r2
      simp only [List.getElem?_map, List.getElem?_eq_getElem hj, Option.map_some] at e
      have hv := hval (ss[j] + k) (by omega)
      rw [List.getElem?_map] at hv
      rw [hv] at e
      cases hb1 : row[j]? with
      | none => rw [hb1] at e; cases e
      | some v =>
        rw [hb1] at e
        simp only [Option.map_some, Option.some.injEq] at e
        rw [e]
        congr 2
        push_cast
        ring

/-- C89: a trajectory with the array of start indices that the program makes is usable for windows of the size the array was made for, if rounded quotients of at least 1 are at least 1. -/
theorem C89_usable {Y τ α : Type} [LinearOrder α] (dist : Y → Y → α) (ratio : α → α → Int) (hr : ∀ a m, m ≤ a → 1 ≤ ratio a m) (d : Traj Y τ) (ht : d.t.length = d.y.length) (b : Nat) (hb : 0 < b)
    (hs : selection ratio (distances dist d.y) b = .ok d.uniform) (distanceBased : Bool) : Usable d b distanceBased := by
  have hlt := ((C54_selection_exists dist ratio d.y b (by omega)).1 ⟨_, hs⟩).2
  refine ⟨hb, ht, fun _ => ⟨?_, ?_⟩, by omega⟩
  · intro he
    have := (C54_selection_all dist ratio hr d.y b (by omega) _ hs 0).2 (by unfold arange; rw [List.mem_range]; omega)
    rw [he] at this
    cases this
  · intro i hi
    have := C54_selection_inside dist ratio d.y b (by omega) _ hs i hi
    unfold Starts at this
    omega

/-! ## Examples -/

/-- The data of `--linear` with three points, windows of two points. -/
example : ∃ batch, Windows (τ := ℝ) ⟨dataStart, dataTimes 3, (dataTimes 3).map fun t : ℝ => (2 * Real.exp (-(t / 10)) * Real.cos (2 * t), 2 * Real.exp (-(t / 10)) * Real.sin (2 * t)), [0]⟩ 2 [0] batch := by
  have : Inhabited (ℝ × ℝ) := ⟨(0, 0)⟩
  refine ⟨_, windowsAt_spec _ 2 [0] ?_⟩
  intro s hs
  simp only [List.mem_singleton] at hs
  subst hs
  simp [dataTimes, Training.linspace]
/-- The cubic system has a solution: the origin. -/
example : Solves (diffEqRHS dataA false) fun _ => (0, 0) := by
  intro t
  simp only [diffEqRHS, Bool.false_eq_true, if_false]
  refine ⟨(hasDerivAt_const t (0 : ℝ)).congr_deriv (by ring), (hasDerivAt_const t (0 : ℝ)).congr_deriv (by ring)⟩
example : selection (fun a m => a / m) (distances (fun a b => a - b) [0, 1, 3, 4, (7 : ℤ)]) (2 : Nat) = .ok [0, 1, 1, 2] := rfl

end Verif.Datasets
