import Verif.Order.Penalty
import Verif.Order.Sharp
import Verif.Converge.Instance

/-!
# C94: concrete cases
-/

namespace Verif.Order
open Set Verif Verif.Shooting Verif.Evolution Verif.Models Verif.Tensor Verif.Assembly Verif.Flow Verif.Whole Verif.Activation Verif.Converge

/-- The up-down class with `tanh`. -/
theorem smooth_tanh {C D E : Type} [Fintype C] [Fintype D] [Fintype E] : Smooth (fun _ => upDown Real.tanh : Class (Two C D E) _) :=
  (C94_classes (h := 1) (w := 1) (contDiff_tanh (n := 6)) one_pos).2.1

/-- `C94_nonlinearities`: five derivatives for the name "sigmoid". -/
example : ∃ f g, getNonlinearity (some "sigmoid".toList) = .ok (f, g) ∧ ContDiff ℝ (5 : ℕ) f := C94_nonlinearities _ .sigmoid (by decide) (by decide) 5

/-- `C94_step`: the exponential function with the method of Runge and Kutta: an error of fifth order for one step. -/
example : ∃ C, 0 ≤ C ∧ ∀ t t' : ℝ, 0 ≤ t → t ≤ t' → t' ≤ 3 → t' - t ≤ 1 →
    ‖Real.exp t' - (Real.exp t + (t' - t) • increment Converge.rk4 (fun _ y => y) (t' - t) t (Real.exp t))‖ ≤ C * (t' - t) ^ (4 + 1) :=
  C94_step (f := fun _ y : ℝ => y) contDiff_snd C94_methods.2.2.1 fun t _ => (Real.hasDerivAt_exp t).hasDerivWithinAt

/-- `C94_on_grid`: with steps of 1/4 from 0 to 1 the requested time 1/2 is on the grid. -/
example : (1 / 2 : ℝ) ∈ stepGrid (1 / 4) [0, 1 / 2, 1] := by
  have := (C94_on_grid 0 [1 / 2, 1]).2.2 (1 / 4) (by norm_num) (by norm_num) 2 ⟨1, by simp, by norm_num⟩
  norm_num at this ⊢
  exact this

section
variable (q p : Fin 5 × Two (Fin 1) (Fin 2) (Fin 6) → ℝ) (B : ℕ) (X : Tensor ℝ) (hw : X.WF) (hs : X.shape = [B, 1, 2])

/-- The end of the integration is on every grid. -/
theorem both {h : ℝ} {G : List ℝ → List ℝ} {a e : ℝ} (hs : Suits h G a [e]) : ∀ τ ∈ [a, e], τ ∈ G [a, e] := by
  obtain ⟨h1, h2⟩ := (C94_on_grid a [e]).1 h G hs
  intro τ hτ
  rcases List.mem_cons.1 hτ with rfl | hτ
  · exact h1
  · rw [List.mem_singleton.1 hτ]
    exact h2 e (by simp)

include hw hs in
/-- `C94_forward_sizes` (and with it `C94_forward`, `C94_converge`) for a block of the up-down class with `tanh`, five particles, the method of Runge and Kutta as the library has it and steps of size `h`, any
batch: the output is the exact solution up to a constant times `h ^ 4`. -/
example (ρ) : ∃ (y : ℝ → Sys (Fin 5) (Fin B) (Two (Fin 1) (Fin 2) (Fin 6))) (C h₀ : ℝ), y 0 = (q, p, dataTwo X B 1 2 6) ∧ 0 < h₀ ∧
    Solves (Evolution.field (fun _ => upDown Real.tanh) (Evolution.autodiff (fun _ => upDown Real.tanh) (fun _ => none) fun _ => (0, 0))) 0 1 y ∧
    ∀ h, 0 < h → h ≤ h₀ → ∃ o t, (Block.forward (udCfg (autodiffCls (layTwo 1 2 6) (fun _ => upDown Real.tanh) fun _ => none) false ρ (solver rk38 (stepGrid h))) ()
        ⟨some X, none, none, none⟩ (udSt q p)).2 = .ok o ∧ o.result = .tensor t ∧
      ∀ (b : Fin B) (j : Fin 2), ∃ v, t.get? [b.1, 0, j.1] = some v ∧ |v - (y 1).2.2 (b, .inl (0, j))| ≤ C * h ^ 4 := by
  obtain ⟨y, hy, hya, C, h₀, _, hp, key⟩ := C94_forward_sizes (H := Unit) (D := Unit) (Θ := Unit) (Rb := Unit) (layTwo_ok 1 2 6) (layTwo_ok 1 2 6) (regular_tanh (C := Fin 1) (D := Fin 2) (E := Fin 6))
    smooth_tanh regular_tanh smooth_tanh (fun _ => none) (fun _ => by norm_num [weight]) (n := 5) (B := B) (by norm_num) q p (dataTwo X B 1 2 6) C94_methods.2.2.2 (a := 0) (b := 1) zero_le_one
  refine ⟨y, C, h₀, hya, hp, hy, fun h hh hle => ?_⟩
  have hinc : [(0 : ℝ), 1].Pairwise (· < ·) := by simp
  obtain ⟨o, t, h1, h2, h3⟩ := key h hh hle (stepGrid h) _ _ (udCfg (autodiffCls (layTwo 1 2 6) (fun _ => upDown Real.tanh) fun _ => none) false ρ (solver rk38 (stepGrid h)))
    (ud_isBlock _ rfl rfl false ρ _) rfl rfl (udSt q p) ((C67_layouts 1 2 6).2 2 le_rfl).2.1 (.upTo 1) [1] ⟨rfl, rfl⟩ rfl hinc (by simp) (stepGrid_suits hh 0 [1] hinc) rfl rfl X
    (ud_initial _ _ _ _ B X hw hs) ()
  exact ⟨o, t, h1, h2, fun b j => h3.2 (both (stepGrid_suits hh 0 [1] hinc)) b (.inl (0, j)) rfl⟩

include hw hs in
/-- `C94_forward_rnn` for the same block in RNN mode, with the midpoint rule. -/
example (ρ) : ∃ (y : ℝ → Sys (Fin 5) (Fin B) (Two (Fin 1) (Fin 2) (Fin 6))) (C h₀ : ℝ), y 0 = (q, p, dataTwo X B 1 2 6) ∧ 0 < h₀ ∧
    ∀ h, 0 < h → h ≤ h₀ → ∃ o t, (Block.forward (udCfg (rnnCls (layTwo 1 2 6) (fun _ => upDown Real.tanh) fun _ => none) true ρ (solver Converge.midpoint (stepGrid h))) ()
        ⟨some X, none, none, none⟩ (udSt q p)).2 = .ok o ∧ o.result = .tensor t ∧
      ∀ (b : Fin B) (j : Fin 2), ∃ v, t.get? [b.1, 0, j.1] = some v ∧ |v - (y 1).2.2 (b, .inl (0, j))| ≤ C * h ^ 2 := by
  obtain ⟨y, hy, hya, C, h₀, _, hp, key⟩ := C94_forward_rnn (H := Unit) (D := Unit) (Θ := Unit) (Rb := Unit) (layTwo_ok 1 2 6) (layTwo_ok 1 2 6) (regular_tanh (C := Fin 1) (D := Fin 2) (E := Fin 6))
    smooth_tanh regular_tanh smooth_tanh (fun _ => none) (n := 5) (B := B) (by norm_num) q p (dataTwo X B 1 2 6) C94_methods.2.1 (a := 0) (b := 1) zero_le_one
  refine ⟨y, C, h₀, hya, hp, fun h hh hle => ?_⟩
  have hinc : [(0 : ℝ), 1].Pairwise (· < ·) := by simp
  obtain ⟨o, t, h1, h2, h3⟩ := key h hh hle (stepGrid h) _ _ (udCfg (rnnCls (layTwo 1 2 6) (fun _ => upDown Real.tanh) fun _ => none) true ρ (solver Converge.midpoint (stepGrid h)))
    (ud_isBlock _ rfl rfl true ρ _) rfl rfl rfl (udSt q p) ((C67_layouts 1 2 6).2 2 le_rfl).2.1 (.upTo 1) [1] ⟨rfl, rfl⟩ rfl hinc (by simp) (stepGrid_suits hh 0 [1] hinc) rfl rfl X
    (ud_initial _ _ _ _ B X hw hs) ()
  exact ⟨o, t, h1, h2, fun b j => h3.2 (both (stepGrid_suits hh 0 [1] hinc)) b (.inl (0, j)) rfl⟩

end

/-- `C94_forward_analytic` for the simple class without nonlinearity: one particle, any batch. -/
example (l : List ℝ) : ∃ (y : ℝ → Sys (Fin 1) (Fin l.length) (Fin 1 × Fin 1)) (C h₀ : ℝ), 0 < h₀ ∧ (y 0).1 = (fun _ => 1) ∧
    ∀ h, 0 < h → h ≤ h₀ → ∃ o t, (Block.forward (demoCfg (solver rk38 (stepGrid h))) () ⟨some (demoInput l), none, none, none⟩ demoSt).2 = .ok o ∧ o.result = .tensor t ∧
      ∀ b : Fin l.length, ∃ v, t.get? [b.1, 0, 0] = some v ∧ |v - (y 1).2.2 (b, (0, 0))| ≤ C * h ^ 4 := by
  have hid : ∀ x : ℝ, HasDerivAt (id : ℝ → ℝ) ((fun _ => 1) x) x := fun x => hasDerivAt_id x
  obtain ⟨y, hy, hya, C, h₀, _, hp, key⟩ := C94_forward_analytic (R := Unit) (H := Unit) (D := Unit) (Θ := Unit) (Rb := Unit) (layOne_ok 1 1)
    (C69_classes (C := Fin 1) (D := Fin 1) (E := Fin 1) contDiff_id tame_identity).1 (C94_classes (C := Fin 1) (D := Fin 1) (E := Fin 1) (h := 1) (w := 1) contDiff_id one_pos).1
    (fun _ => none) (fun _ => by norm_num [weight]) (n := 1) (B := l.length) one_pos
    (fun _ => simpleParams id) (fun _ => simpleCostate fun _ => 1) ((C68_exact (F := Fin 1) hid one_pos).1 _ fun _ => by norm_num [weight]) (fun _ => 1) (fun _ => 1)
    (fun k => elem (demoInput l) k.1 k.2.1 k.2.2) C94_methods.2.2.2 (a := 0) (b := 1) zero_le_one
  refine ⟨y, C, h₀, hp, by rw [hya], fun h hh hle => ?_⟩
  have hinc : [(0 : ℝ), 1].Pairwise (· < ·) := by simp
  obtain ⟨o, t, h1, h2, h3⟩ := key h hh hle (stepGrid h) _ _ (demoCfg (solver rk38 (stepGrid h))) (demo_isBlock _) rfl rfl demoSt ((C67_layouts 1 1 1).2 2 le_rfl).1 (.upTo 1) [1]
    ⟨rfl, rfl⟩ rfl hinc (by simp) (stepGrid_suits hh 0 [1] hinc) rfl rfl (demoInput l) (demo_initial _ l) ()
  exact ⟨o, t, h1, h2, fun b => h3.2 (both (stepGrid_suits hh 0 [1] hinc)) b (0, 0) rfl⟩

/-- `C94_norm_penalty` when the requested times are the grid: 0, h, 2h. -/
example (n B : ℕ) (z : Sys (Fin (n + 1)) (Fin B) (Two (Fin 1) (Fin 2) (Fin 6))) : ∃ C h₀ : ℝ, 0 < h₀ ∧ ∀ h, 0 < h → h ≤ h₀ → h ≤ 1 / 2 →
    ∃ ys, runSys (Evolution.field (fun _ => upDown Real.tanh) (Evolution.autodiff (fun _ => upDown Real.tanh) (fun _ => some 3) fun _ => (0, 0))) (solver rk38 id [0, h, 2 * h]) [z] = .ok ys ∧
      List.Forall₂ (fun Y _ => |kineticEnergy (fun _ => some 3) (directParameters (upDown Real.tanh) (fun _ => some 3) 0 Y.1 Y.2.1) -
        kineticEnergy (fun _ => some 3) (directParameters (upDown Real.tanh) (fun _ => some 3) 0 z.1 z.2.1)| ≤ C * h ^ 4) ys [0, h, 2 * h] := by
  obtain ⟨C, h₀, _, hp, key⟩ := C94_norm_penalty regular_tanh smooth_tanh (fun _ => some 3) (fun _ => by norm_num [weight]) (fun _ => (0, 0)) C94_methods.2.2.2 zero_le_one z
  refine ⟨C, h₀, hp, fun h hh hle h2 => ?_⟩
  have hinc : [(0 : ℝ), h, 2 * h].Pairwise (· < ·) := by
    simp only [List.pairwise_cons, List.mem_cons, List.not_mem_nil, or_false, forall_eq_or_imp, forall_eq, List.Pairwise.nil, and_true, IsEmpty.forall_iff, implies_true]
    exact ⟨⟨hh, by linarith⟩, by linarith⟩
  obtain ⟨ys, e1, e2⟩ := key h hh hle id [h, 2 * h] hinc (by
      intro τ hτ
      simp only [List.mem_cons, List.not_mem_nil, or_false] at hτ
      rcases hτ with rfl | rfl | rfl <;> linarith)
    ⟨[h, 2 * h], rfl, rfl, hh, by linarith, by linarith, by linarith, trivial⟩
  refine ⟨ys, e1, ?_⟩
  rw [List.forall₂_iff_get] at e2 ⊢
  exact ⟨e2.1, fun i hi hi' => (e2.2 i hi hi').2 ((C94_on_grid 0 [h, 2 * h]).2.1 _ (List.get_mem _ _))⟩

/-- `C94_sharp`, `C94_interpolation_sharp` for a system with a single sample and a single coordinate, ten steps: Euler's method misses the value 1 by 1/10. -/
example : ∃ Y : Sys (Fin 0) Unit Unit, runSys (power 1 (0, 0, fun _ => 1)) (solver Converge.euler (stepGrid (1 / (10 : ℕ))) [0, 1]) [0] = .ok [0, Y] ∧ Y.2.2 ((), ()) = 9 / 10 := by
  obtain ⟨Y, h1, h2⟩ := (C94_sharp (ι := Fin 0) (β := Unit) (K := Unit) (K' := Unit) (0, 0, fun _ => 1) 0 (n := 10) (by norm_num)).1
  refine ⟨Y, h1, ?_⟩
  have := congrFun (congrArg (fun z : Sys2 (Fin 0) Unit Unit Unit => z.2.2) h2) ((), ())
  simp at this
  linarith

end Verif.Order
