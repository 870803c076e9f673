import Verif.Descent.Block
import Verif.Gradcheck.Instance

/-!
# The hypotheses of C101 can be met
-/

namespace Verif.Descent
open Verif Verif.Tensor Verif.Gradcheck Verif.Whole Verif.Shooting Verif.Evolution Verif.Converge Verif.Assembly Verif.Flow Verif.Models

/-- `C101_rules` for the defaults of torch. -/
example : Downhill sgd ∧ Downhill (adamFirst 0.9 0.999 1e-8) := C101_rules (by norm_num) (by norm_num) (by norm_num)

/-- `C101_round`: the loss `(q - 3)² + p` at `q = 1`, `p = 5` with frozen costates and particles cut off at 2, from old gradients: the loss falls. -/
example : ∃ η₀ : ℝ, 0 < η₀ ∧ ∀ η, 0 < η → η < η₀ → ∃ (g' : Grads) (q' p' : Fin 1 × (Fin 1 × Fin 1) → ℝ),
    oneRound (layOne 1 1) (n := 1) (sgd η) (fun nm => nm == "p_q1") (fun _ => none) (fun q p => .ok ((q (0, 0, 0) - 3) ^ 2 + p (0, 0, 0))) (fun _ => 1) (fun _ => 5) [("q1", some [17]), ("p_q1", none)] =
      .ok (g', values (layOne 1 1) q' p') ∧ (q' (0, 0, 0) - 3) ^ 2 + p' (0, 0, 0) < (1 - 3) ^ 2 + 5 := by
  have hder : autograd (fun q' : Fin 1 × (Fin 1 × Fin 1) → ℝ => (q' (0, 0, 0) - 3) ^ 2 + 5) (fun _ => 1) = fun _ => -4 := by
    funext j
    have : j = (0, 0, 0) := Subsingleton.elim _ _
    subst this
    have : HasDerivAt (fun s : ℝ => (s - 3) ^ 2 + 5) (2 * (1 - 3)) 1 := by
      have := (((hasDerivAt_id (1 : ℝ)).sub_const 3).pow 2).add_const 5
      simpa using this
    simp only [autograd, Function.update_self, this.deriv]
    norm_num
  have hder' : autograd (fun p' : Fin 1 × (Fin 1 × Fin 1) → ℝ => ((1 : ℝ) - 3) ^ 2 + p' (0, 0, 0)) (fun _ => 5) = fun _ => 1 := by
    funext j
    have : j = (0, 0, 0) := Subsingleton.elim _ _
    subst this
    simp [autograd]
  have hd : derivatives (layOne 1 1) (fun q p : Fin 1 × (Fin 1 × Fin 1) → ℝ => (q (0, 0, 0) - 3) ^ 2 + p (0, 0, 0)) (fun _ => 1) (fun _ => 5) = [("q1", [-4]), ("p_q1", [1])] := by
    unfold derivatives
    rw [hder, hder']
    simp [enc, layOne, tab, tabData, value, Whole.pair]
  obtain ⟨η₀, h0, hη⟩ := C101_round (layOne_ok 1 1) (apart_layouts 1 1 1).1 (n := 1) (loss := fun q p => .ok ((q (0, 0, 0) - 3) ^ 2 + p (0, 0, 0)))
    (ℓ := fun v : (Fin 1 × (Fin 1 × Fin 1) → ℝ) × (Fin 1 × (Fin 1 × Fin 1) → ℝ) => (v.1 (0, 0, 0) - 3) ^ 2 + v.2 (0, 0, 0)) (by fun_prop) (fun _ _ => rfl)
    (C101_rules (β₁ := 0.9) (β₂ := 0.999) (ε := 1) (by norm_num) (by norm_num) (by norm_num)).1 (fun nm => nm == "p_q1") (fun _ => none) (q := fun _ => 1) (p := fun _ => 5) (fun _ _ _ h => by cases h)
    (g := [("q1", some [17]), ("p_q1", none)]) (by
      rw [hd]
      refine .cons ⟨rfl, fun h => by simp at h, fun l hl => ?_⟩ (.cons ⟨rfl, fun _ => rfl, fun l hl => by cases hl⟩ .nil)
      cases hl
      rfl)
  refine ⟨η₀, h0, fun η h1 h2 => ?_⟩
  obtain ⟨g', q', p', r1, _, _, _, r2⟩ := hη η h1 h2
  refine ⟨g', q', p', r1, r2 ⟨("q1", [-4]), by rw [hd]; simp, by decide, rfl, -4, by simp, by norm_num⟩⟩

/-- `C101_momentum`. -/
example : ∃ m v g x : ℝ, (∃ x₀, m = (adam 0.1 0.9 0.999 1e-8 1 0 0 x₀ 1).2.1 ∧ v = (adam 0.1 0.9 0.999 1e-8 1 0 0 x₀ 1).2.2) ∧ g < 0 ∧ (adam 0.1 0.9 0.999 1e-8 2 m v x g).1 < x :=
  C101_momentum (by norm_num)

section
variable (B : ℕ) (X : Tensor ℝ) (hw : X.WF) (hs : X.shape = [B, 1, 2])

include hw hs in
/-- `C101_demo` (and with it `C101_loss`) for the up-down class with `tanh`, five particles, the method of Runge and Kutta, steps of size 0.1, any batch and targets and the first step of Adam: the gradients
are `None`, the particles are between -2 and 2 and cut off there. -/
example (ρ) (target : List ℝ) (q p : Fin 5 × Two (Fin 1) (Fin 2) (Fin 6) → ℝ) (hq : ∀ j, |q j| ≤ 2) : ∃ η₀ : ℝ, 0 < η₀ ∧ ∀ η, 0 < η → η < η₀ → ∃ (g' : Grads) (q' p' : Fin 5 × Two (Fin 1) (Fin 2) (Fin 6) → ℝ) (l l' : ℝ),
    oneRound (layTwo 1 2 6) (adamFirst 0.9 0.999 1e-8 η) (fun _ => false) (fun nm => if nm = "q1" then some 2 else none)
      (demoLoss (H := Unit) (D := Unit) (layTwo 1 2 6) (solver Converge.rk4 (stepGrid 0.1))
        (fun _ dd => ⟨rule (autodiffCls (layTwo 1 2 6) (fun _ => upDown Real.tanh) fun _ => none) true 2 dd, fun _ _ => none, false, false⟩)
        (⟨false, false, none, none, none, [], 0, [], none⟩, ρ)
        (udCfg (autodiffCls (layTwo 1 2 6) (fun _ => upDown Real.tanh) fun _ => none) false ρ (solver Converge.rk4 (stepGrid 0.1))) () false 100 0.1 X target (udSt 0 0)) q p
      [("q1", none), ("q2", none), ("p_q1", none), ("p_q2", none)] = .ok (g', values (layTwo 1 2 6) q' p') ∧
    demoLoss (H := Unit) (D := Unit) (layTwo 1 2 6) (solver Converge.rk4 (stepGrid 0.1))
        (fun _ dd => ⟨rule (autodiffCls (layTwo 1 2 6) (fun _ => upDown Real.tanh) fun _ => none) true 2 dd, fun _ _ => none, false, false⟩)
        (⟨false, false, none, none, none, [], 0, [], none⟩, ρ)
        (udCfg (autodiffCls (layTwo 1 2 6) (fun _ => upDown Real.tanh) fun _ => none) false ρ (solver Converge.rk4 (stepGrid 0.1))) () false 100 0.1 X target (udSt 0 0) q p = .ok l ∧
    demoLoss (H := Unit) (D := Unit) (layTwo 1 2 6) (solver Converge.rk4 (stepGrid 0.1))
        (fun _ dd => ⟨rule (autodiffCls (layTwo 1 2 6) (fun _ => upDown Real.tanh) fun _ => none) true 2 dd, fun _ _ => none, false, false⟩)
        (⟨false, false, none, none, none, [], 0, [], none⟩, ρ)
        (udCfg (autodiffCls (layTwo 1 2 6) (fun _ => upDown Real.tanh) fun _ => none) false ρ (solver Converge.rk4 (stepGrid 0.1))) () false 100 0.1 X target (udSt 0 0) q' p' = .ok l' ∧
    l' ≤ l := by
  have hinc : [(0 : ℝ), 1].Pairwise (· < ·) := by simp
  have hc := C93_classes (E := Fin 2) (F := Fin 6) (contDiff_tanh (n := 2)) tanh_derivative (n := 5) (by norm_num)
  have hwt : ∀ r : UpDownPar (Fin 2) (Fin 6), weight (fun _ => none) r ≠ 0 := fun _ => by norm_num [weight]
  have hin : Inside (fun nm => if nm = "q1" then some 2 else none) (values (layTwo 1 2 6) q p) := by
    refine (inside_values (layTwo_ok 1 2 6) q p).2 ⟨fun j b hb => ?_, fun j b hb => ?_⟩
    · split at hb
      · cases hb
        exact hq j
      · cases hb
    · split at hb
      · rename_i h
        obtain ⟨i, k⟩ := j
        rcases k with k | k <;> exact absurd h (by simp only [layTwo]; decide)
      · cases hb
  obtain ⟨η₀, h0, hη⟩ := C101_demo (layTwo_ok 1 2 6) (apart_layouts 1 2 6).2 (fun κ _ => (hc.2.2.2.2.2 κ).2.1.1) (fun κ _ => (hc.2.2.2.2.2 κ).2.1.2) hwt (n := 5) (B := B) (by norm_num)
    explicit_methods.2.2.1 (G := stepGrid 0.1)
    (ud_isBlock _ rfl rfl false ρ _) rfl rfl (s := udSt 0 0) ((C67_layouts 1 2 6).2 2 le_rfl).2.1 (w := .upTo 1) ⟨rfl, rfl⟩ (ts := [1]) rfl hinc (by simp)
    (stepGrid_suits (h := 0.1) (by norm_num) 0 [1] hinc) (ud_initial _ _ _ _ B X hw hs) () false 100 0.1 target
    (C101_rules (β₁ := 0.9) (β₂ := 0.999) (ε := 1e-8) (by norm_num) (by norm_num) (by norm_num)).2 (fun _ => false) (fun nm => if nm = "q1" then some 2 else none) (q := q) (p := p)
    hin
    (g := [("q1", none), ("q2", none), ("p_q1", none), ("p_q2", none)])
    (.cons ⟨rfl, fun _ => rfl, fun l hl => (by cases hl)⟩ (.cons ⟨rfl, fun _ => rfl, fun l hl => (by cases hl)⟩ (.cons ⟨rfl, fun _ => rfl, fun l hl => (by cases hl)⟩ (.cons ⟨rfl, fun _ => rfl, fun l hl => (by cases hl)⟩ .nil))))
  refine ⟨η₀, h0, fun η h1 h2 => ?_⟩
  obtain ⟨g', q', p', l, l', r1, r2, r3, r4, _⟩ := hη η h1 h2
  refine ⟨g', q', p', l, l', r1, r2, r3, ?_⟩
  rcases r4 with h | h
  · cases h
    rw [r2] at r3
    exact (Except.ok.inj r3).ge
  · exact h.le

end

end Verif.Descent
