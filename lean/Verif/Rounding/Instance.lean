import Verif.Rounding.Forward
import Verif.Order.Instance

/-!
# C96: concrete cases
-/

namespace Verif.Rounding
open Set Verif Verif.Shooting Verif.Evolution Verif.Models Verif.Tensor Verif.Assembly Verif.Flow Verif.Whole Verif.Activation Verif.Converge Verif.Order

/-- Errors that are met: the equation `y' = y` in one coordinate, one step of Euler's method from 1 with the slope 1.01 instead of 1 and the result 2.03 instead of 2.01. -/
example : Rounded Converge.euler (fun _ y : ℝ => y) (1 / 100) (1 / 50) 0 1 [1] [1] [203 / 100] := by
  refine Rounded.step (outs := [203 / 100]) [101 / 100] (203 / 100) ?_ ?_ ?_ .stop
  · refine .cons 1 (101 / 100) ?_ ?_ .nil
    · norm_num [comb]
    · norm_num
  · norm_num [comb, Converge.euler]
  · rw [List.takeWhile_cons_of_pos (by simp), List.takeWhile_nil]
    refine .cons ?_ .nil
    norm_num [between]

/-- `C96_adds_up`: four steps. -/
example : Rounded Converge.rk4 (fun _ _ => (0 : ℝ)) 0 (1 / 8) 0 1 [1, 2, 3, 4] [4] [3 / 2] := by
  have := C96_adds_up Converge.rk4 (ρ := 1 / 8) (by norm_num) (1 / 8 : ℝ) (by norm_num) 1 [1, 2, 3, 4] 0 4 (h := 1) (by norm_num [Mesh]) rfl
  norm_num at this
  exact this

/-- `C96_number`: steps of 1/4 from 0 to 1. -/
example : ((stepGrid (1 / 4) [0, 1]).length : ℝ) ≤ 6 := (C96_number (by norm_num) 0 [1] 1 rfl zero_lt_one).trans (by norm_num)

section
variable (q p : Fin 5 × Two (Fin 1) (Fin 2) (Fin 6) → ℝ) (B : ℕ) (X : Tensor ℝ) (hw : X.WF) (hs : X.shape = [B, 1, 2])

/-- The same block with another solver. -/
noncomputable def withSolver (cfg : Block.Cfg ℝ ℝ Unit Unit) (F : Unit → Nat → AllPlans → List ℝ → List ℝ → Py (Option (List (List ℝ)))) : Block.Cfg ℝ ℝ Unit Unit := { cfg with solve := F }

include hw hs in
/-- `C96_forward_autodiff` (and with it `C96_forward`, `C96_converge`, `C96_steps`, `C96_stable`) for a block of the up-down class with `tanh`, five particles, the method of Runge and Kutta as the library has it and steps of size `h`,
any batch, any solver with small errors. -/
example (ρ') : ∃ (y : ℝ → Sys (Fin 5) (Fin B) (Two (Fin 1) (Fin 2) (Fin 6))) (C h₀ r₀ : ℝ), y 0 = (q, p, dataTwo X B 1 2 6) ∧ 0 < h₀ ∧ 0 < r₀ ∧
    ∀ h, 0 < h → h ≤ h₀ → ∀ δ ρ F, 0 ≤ δ → δ ≤ r₀ → 0 ≤ ρ → ((stepGrid h [0, 1]).length : ℝ) * ρ ≤ r₀ →
      Computes (layTwo 1 2 6) (layTwo 1 2 6) rk38 (stepGrid h [0, 1]) (Evolution.field (fun _ => upDown Real.tanh) (Evolution.autodiff (fun _ => upDown Real.tanh) (fun _ => none) fun _ => (0, 0))) δ ρ
        (q, p, dataTwo X B 1 2 6) (withSolver (udCfg (autodiffCls (layTwo 1 2 6) (fun _ => upDown Real.tanh) fun _ => none) false ρ' (solver rk38 (stepGrid h))) F) (udSt q p) [0, 1] →
      ∃ o t, (Block.forward (withSolver (udCfg (autodiffCls (layTwo 1 2 6) (fun _ => upDown Real.tanh) fun _ => none) false ρ' (solver rk38 (stepGrid h))) F) ()
          ⟨some X, none, none, none⟩ (udSt q p)).2 = .ok o ∧ o.result = .tensor t ∧
        ∀ (b : Fin B) (j : Fin 2), ∃ v, t.get? [b.1, 0, j.1] = some v ∧ |v - (y 1).2.2 (b, .inl (0, j))| ≤ C * (h ^ 4 + δ + (stepGrid h [0, 1]).length * ρ) := by
  obtain ⟨y, hy, hya, C, h₀, r₀, _, hp, hr, key⟩ := C96_forward_autodiff (Θ := Unit) (Rb := Unit) (layTwo_ok 1 2 6) (layTwo_ok 1 2 6) (regular_tanh (C := Fin 1) (D := Fin 2) (E := Fin 6))
    smooth_tanh regular_tanh smooth_tanh (fun _ => none) (fun _ => by norm_num [weight]) (n := 5) (B := B) (by norm_num) q p (dataTwo X B 1 2 6) C94_methods.2.2.2 (a := 0) (b := 1) zero_le_one
  refine ⟨y, C, h₀, r₀, hya, hp, hr, fun h hh hle δ ρ F hδ hδ0 hρ hρ0 hc => ?_⟩
  have hinc : [(0 : ℝ), 1].Pairwise (· < ·) := by simp
  obtain ⟨o, t, h1, h2, h3⟩ := key h hh hle (stepGrid h) [1] hinc (by simp) (stepGrid_suits hh 0 [1] hinc) δ ρ hδ hδ0 hρ hρ0 _ (udSt q p) (.upTo 1) rfl
    ⟨[1, 2], by simp [layTwo, udCfg, withSolver]⟩ ⟨rfl, rfl⟩ rfl rfl rfl hc X (ud_initial (autodiffCls (layTwo 1 2 6) (fun _ => upDown Real.tanh) fun _ => none) false ρ' (solver rk38 (stepGrid h)) B X hw hs) ()
  exact ⟨o, t, h1, h2, fun b j => h3.2 (both (stepGrid_suits hh 0 [1] hinc)) b (.inl (0, j)) rfl⟩

/-- `C96_block`: a solver that meets the assumption, with `δ = ρ = 0`: the one of the model. -/
example (ρ') {h : ℝ} (hh : 0 < h) (x : Fin B × Two (Fin 1) (Fin 2) (Fin 6) → ℝ) :
    Computes (layTwo 1 2 6) (layTwo 1 2 6) rk38 (stepGrid h [0, 1]) (Evolution.field (fun _ => upDown Real.tanh) (Evolution.autodiff (fun _ => upDown Real.tanh) (fun _ => none) fun _ => (0, 0))) 0 0
        (q, p, x) (udCfg (autodiffCls (layTwo 1 2 6) (fun _ => upDown Real.tanh) fun _ => none) false ρ' (solver rk38 (stepGrid h))) (udSt q p) [0, 1] := by
  have hinc : [(0 : ℝ), 1].Pairwise (· < ·) := by simp
  exact C96_block (c := autodiffCls (layTwo 1 2 6) (fun _ => upDown Real.tanh) fun _ => none) (layTwo_ok 1 2 6) (layTwo_ok 1 2 6)
    (indep_autodiff (layTwo 1 2 6) (fun n => (regular_tanh.linear (Fin n)).affine) fun _ => none) (ud_isBlock _ rfl rfl false ρ' _) rfl rfl (udSt q p) ((C67_layouts 1 2 6).2 2 le_rfl).2.1 hinc
    (stepGrid_suits hh 0 [1] hinc) 0 (q, p, x)
end

end Verif.Rounding
