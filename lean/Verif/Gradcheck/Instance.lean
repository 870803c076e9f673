import Verif.Gradcheck.Props
import Verif.Whole.Instance
import Verif.Converge.Instance

/-!
# C93: concrete cases
-/

namespace Verif.Gradcheck
open Verif Verif.Tensor Verif.Assembly Verif.Flow Verif.Whole Verif.Evolution Verif.Converge Verif.Shooting Verif.Models Verif.Activation

/-- `C93_compare`: the ratios are 1.001 and 1, zeros are at the same place. -/
example : compareOne 0.005 [1.001, 0, -2] [1, 0, -2] = .ok true := by
  refine (C93_compare (auto := [1.001, 0, -2]) (ana := [1, 0, -2]) _ rfl).1.2 ⟨⟨1.001, by simp, by norm_num⟩, .cons ⟨by norm_num, fun _ => ?_⟩ (.cons ⟨Iff.rfl, fun h => absurd rfl h⟩ (.cons ⟨by norm_num, fun _ => ?_⟩ .nil))⟩
  · rw [abs_lt]; norm_num
  · rw [abs_lt]; norm_num

/-- `C93_compare`: one ratio is 1.01. -/
example : compareOne 0.005 [1.01, 0, -2] [1, 0, -2] ≠ .ok true := by
  intro h
  have := ((C93_compare (auto := [1.01, 0, -2]) (ana := [1, 0, -2]) _ rfl).1.1 h).2
  cases this with
  | cons h _ =>
    have := h.2 one_ne_zero
    rw [abs_lt] at this
    norm_num at this

/-- `C93_compare`: both gradients vanish. -/
example : compareOne 0.005 [0, 0] [0, 0] = .error .runtimeError := ((C93_compare _ rfl).2 _).2 ⟨rfl, by simp [Moves], by simp [Moves]⟩

/-- `C93_relative`. -/
example {a b : ℝ} (h : Agree 0.005 [a] [b]) : |a - b| ≤ 0.005 * |b| := by
  cases C93_relative h with
  | cons h _ => exact h

/-- `C93_verdict`, `C93_recorded`: a loss with hand-written formulas that forgets the costates is found out: the gradients with respect to them are 1 and 0. -/
example (q p : Fin 1 × (Fin 1 × Fin 1) → ℝ) (k : Fin 1 × (Fin 1 × Fin 1)) : ∃ j, j < 2 ∧
    checkModel (layOne 1 1) 0.005 (.ok ()) (.ok ()) (fun q _ => .ok (q k)) (fun q p => .ok (q k + p k)) q p (0, 0) = .ok (j, 2) := by
  have hk : k = (0, 0, 0) := Subsingleton.elim _ _
  subst hk
  have hv := C93_verdict (layOne_ok 1 1) (apart_layouts 1 1 1).1 (n := 1) 0.005 (ana := fun q _ => .ok (q (0, 0, 0))) (auto := fun q p => .ok (q (0, 0, 0) + p (0, 0, 0))) (q := q) (p := p) rfl rfl (0, 0)
  have hq : ∀ c : ℝ, autograd (fun q' : Fin 1 × (Fin 1 × Fin 1) → ℝ => q' (0, 0, 0) + c) q = fun _ => 1 := by
    intro c
    funext j
    have : j = (0, 0, 0) := Subsingleton.elim _ _
    subst this
    simp [autograd]
  have hq' : autograd (fun q' : Fin 1 × (Fin 1 × Fin 1) → ℝ => q' (0, 0, 0)) q = fun _ => 1 := by
    simpa using hq 0
  have hp : autograd (fun p' : Fin 1 × (Fin 1 × Fin 1) → ℝ => q (0, 0, 0) + p' (0, 0, 0)) p = fun _ => 1 := by
    funext j
    have : j = (0, 0, 0) := Subsingleton.elim _ _
    subst this
    simp [autograd]
  have hp' : autograd (fun _ : Fin 1 × (Fin 1 × Fin 1) → ℝ => q (0, 0, 0)) p = fun _ => 0 := by
    funext j
    simp [autograd]
  have d1 : derivatives (layOne 1 1) (fun q p => valueOr (.ok (q (0, 0, 0) + p (0, 0, 0)))) q p = [("q1", [1]), ("p_q1", [1])] := by
    simp [derivatives, valueOr, hq, hp, enc, layOne, tab, tabData, value, Whole.pair]
  have d2 : derivatives (layOne 1 1) (fun q _ => valueOr (.ok (q (0, 0, 0)))) q p = [("q1", [1]), ("p_q1", [0])] := by
    simp [derivatives, valueOr, hq', hp', enc, layOne, tab, tabData, value, Whole.pair]
  rw [d1, d2] at hv
  rcases hv with ⟨⟨x, hx, hm, _⟩, _⟩ | ⟨j, h1, h2, h3⟩
  · refine absurd ?_ hm
    simp only [List.zip_cons_cons, List.zip_nil_right, List.mem_cons, List.not_mem_nil, or_false] at hx
    rcases hx with rfl | rfl <;> exact ⟨1, by simp, one_ne_zero⟩
  · refine ⟨j, lt_of_le_of_ne h1 fun hj => ?_, by simpa [layOne] using h2⟩
    cases h3.1 hj with
    | cons _ h =>
      cases h with
      | cons h _ =>
        cases h.2 with
        | cons h _ => exact one_ne_zero (h.1.2 rfl)

section
variable (B : ℕ) (X : Tensor ℝ) (hw : X.WF) (hs : X.shape = [B, 1, 2])

theorem tanh_derivative (x : ℝ) : HasDerivAt Real.tanh (deriv Real.tanh x) x := ((contDiff_tanh (n := 2)).differentiable (by simp) x).hasDerivAt

include hw hs in
/-- `C93_model` (and with it `C93_penalty`, `C93_penalty_initial`, `C93_same`, `C93_same_loss`, `C93_differentiable`, `C93_script`) for the up-down class with `tanh`, five particles, the method of Runge and
Kutta, steps of size 0.1 and any batch. -/
example (ρ ρ') : ∃ ℓ : (Fin 5 × Two (Fin 1) (Fin 2) (Fin 6) → ℝ) × (Fin 5 × Two (Fin 1) (Fin 2) (Fin 6) → ℝ) → ℝ, Differentiable ℝ ℓ ∧
    ∀ q p, (∀ d ∈ derivatives (layTwo 1 2 6) (fun q p => ℓ (q, p)) q p, Moves d.2) →
      checkModel (layTwo 1 2 6) 0.005 (.ok ()) (.ok ())
        (testLoss (H := Unit) (D := Unit) (layTwo 1 2 6) (solver Converge.rk4 (stepGrid 0.1))
          (fun _ dd => ⟨rule (analyticCls (layTwo 1 2 6) (fun _ => upDown Real.tanh) (fun _ => upDownParams Real.tanh) (fun _ => upDownCostate (deriv Real.tanh)) fun _ => none) true 2 dd, fun _ _ => none, false, false⟩)
          (⟨false, false, none, none, none, [], 0, [], none⟩, ρ)
          (udCfg (analyticCls (layTwo 1 2 6) (fun _ => upDown Real.tanh) (fun _ => upDownParams Real.tanh) (fun _ => upDownCostate (deriv Real.tanh)) fun _ => none) false ρ (solver Converge.rk4 (stepGrid 0.1)))
          () X (udSt 0 0))
        (testLoss (H := Unit) (D := Unit) (layTwo 1 2 6) (solver Converge.rk4 (stepGrid 0.1))
          (fun _ dd => ⟨rule (autodiffCls (layTwo 1 2 6) (fun _ => upDown Real.tanh) fun _ => none) true 2 dd, fun _ _ => none, false, false⟩)
          (⟨false, false, none, none, none, [], 0, [], none⟩, ρ')
          (udCfg (autodiffCls (layTwo 1 2 6) (fun _ => upDown Real.tanh) fun _ => none) false ρ' (solver Converge.rk4 (stepGrid 0.1))) () X (udSt 0 0)) q p (3, 3) = .ok (7, 7) := by
  have hinc : [(0 : ℝ), 1].Pairwise (· < ·) := by simp
  have hc := C93_classes (E := Fin 2) (F := Fin 6) (contDiff_tanh (n := 2)) tanh_derivative (n := 5) (by norm_num)
  have hwt : ∀ r : UpDownPar (Fin 2) (Fin 6), weight (fun _ => none) r ≠ 0 := fun _ => by norm_num [weight]
  obtain ⟨ℓ, h1, _, h2⟩ := C93_model (R := UpDownPar (Fin 2) (Fin 6) → ℝ) (layTwo_ok 1 2 6) (apart_layouts 1 2 6).2 (fun κ _ => (hc.2.2.2.2.2 κ).2.1.1) (fun κ _ => (hc.2.2.2.2.2 κ).2.1.2) hwt (n := 5) (B := B) (by norm_num)
    (par := fun _ => upDownParams Real.tanh) (cost := fun _ => upDownCostate (deriv Real.tanh)) (hc.2.1 _ hwt) explicit_methods.2.2.1 (G := stepGrid 0.1)
    ⟨ud_isBlock _ rfl rfl false ρ _, ud_isBlock _ rfl rfl false ρ' _, ⟨rfl, rfl⟩, ⟨rfl, rfl⟩, rfl, rfl⟩ (s := udSt 0 0) ((C67_layouts 1 2 6).2 2 le_rfl).2.1 (w := .upTo 1) ⟨rfl, rfl⟩ (ts := [1]) rfl hinc (by simp)
    (stepGrid_suits (h := 0.1) (by norm_num) 0 [1] hinc) (ud_initial _ _ _ _ B X hw hs) (ud_initial _ _ _ _ B X hw hs) () rfl (tol := 0.005) (by norm_num) (3, 3)
  exact ⟨ℓ, h1, h2⟩

end

/-- `C93_gradient`. -/
example (q p : Fin 2 × Fin 1 → ℝ) : HasGrad (fun q' : Fin 2 × Fin 1 → ℝ => q' (0, 0) + p (0, 0)) (autograd (fun q' => q' (0, 0) + p (0, 0)) q) q :=
  (C93_gradient (ℓ := fun v : (Fin 2 × Fin 1 → ℝ) × (Fin 2 × Fin 1 → ℝ) => v.1 (0, 0) + v.2 (0, 0)) (by fun_prop) q p).1

end Verif.Gradcheck
