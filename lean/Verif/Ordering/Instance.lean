import Verif.Ordering.Reverse
import Verif.Converge.Instance
import Verif.Training.Model

/-!
# The hypotheses of C102 can be met
-/

namespace Verif.Ordering
open Set Verif Verif.Tensor Verif.Shooting Verif.Evolution Verif.Models Verif.Converge Verif.Whole Verif.Assembly Verif.Flow

/-- A block of the simple class for single numbers with automatic differentiation; `c` is `autodiffCls` or `rnnCls`, `u` whether RNN mode is on. -/
noncomputable def lineCfg (c : Cls (Fin 1 × Fin 1) (Fin 1 × Fin 1) (Layer (Fin 1) (Fin 1)) (Layer (Fin 1) (Fin 1) → ℝ)) (u : Bool) (ρ : Nat → (Layer (Fin 1) (Fin 1) → ℝ) × (Layer (Fin 1) (Fin 1) → ℝ))
    (M : List ℝ → Method ℝ ℝ) : Block.Cfg ℝ ℝ Unit Unit where
  name := "b"
  concatenate := true
  concatDim := 2
  enlargementDims := none
  enlarge := false
  keepZero := false
  initialData := Shapes.initialData .simple ⟨1, 1, .num 1, 1, 3⟩ .zero ⟨[], fun _ => [], fun _ => []⟩
  outKey := "q1"
  solve := solveWith M (fun _ dd => ofIntegrand (H := Unit) (D := Unit) ⟨rule c true 2 dd, fun _ _ => none, false, false⟩) (⟨u, false, none, none, none, [], 0, [], none⟩, ρ)
  mkState _ _ _ _ := []
  mkCostate _ _ _ _ := []

theorem line_isBlock (c : Cls (Fin 1 × Fin 1) (Fin 1 × Fin 1) (Layer (Fin 1) (Fin 1)) (Layer (Fin 1) (Fin 1) → ℝ)) (hc : c.lay = layOne 1 1) (hc' : c.dataLay = layOne 1 1) (u : Bool)
    (ρ : Nat → (Layer (Fin 1) (Fin 1) → ℝ) × (Layer (Fin 1) (Fin 1) → ℝ)) (M : List ℝ → Method ℝ ℝ) :
    IsBlock (H := Unit) (D := Unit) c M (fun _ dd => ⟨rule c true 2 dd, fun _ _ => none, false, false⟩) (⟨u, false, none, none, none, [], 0, [], none⟩, ρ) (lineCfg c u ρ M) where
  solve := rfl
  concatenate := rfl
  integrand _ _ := ⟨rfl, fun _ _ => rfl, rfl⟩
  dim := by rw [hc]; exact ((C67_layouts 1 1 1).2 2 le_rfl).1
  key := by rw [hc']; exact ⟨[1, 1], by simp [layOne, lineCfg]⟩

/-- Three particles with given states and costates. -/
noncomputable def lineSt (q p : Fin 3 × (Fin 1 × Fin 1) → ℝ) : Block.St ℝ ℝ Unit :=
  ⟨true, some [0, 1], none, some (enc (layOne 1 1) "" 3 q), some (enc (layOne 1 1) "p_" 3 p), none, none, [], 2, ()⟩

theorem line_initial (c u ρ M) (l : List ℝ) : (lineCfg c u ρ M).initialData (demoInput l) = .ok (enc (layOne 1 1) "" l.length fun k => l[k.1]) :=
  (demo_initial M l).trans (by rw [demo_elem])

theorem regular_line : Regular (fun _ => simple Real.tanh : Class (Fin 1 × Fin 1) _) := (C69_classes (E := Fin 1) (contDiff_tanh (n := 2)) tame_tanh).1

/-- `C102_order`: three particles, a batch of any size, a solution from any start. -/
example (B : ℕ) (z : Sys (Fin 3) (Fin B) (Fin 1 × Fin 1)) (ρ) (s s' : Fin B) (h : z.2.2 (s, 0, 0) < z.2.2 (s', 0, 0)) :
    ∃ y, Solves (Evolution.field2 (fun _ => simple Real.tanh) (fun _ => simple Real.tanh) (Evolution.autodiff (fun _ => simple Real.tanh) (fun _ => none) ρ)) 0 1 y ∧ y 0 = z ∧
      (y 1).2.2 (s, 0, 0) < (y 1).2.2 (s', 0, 0) := by
  have hw : ∀ r : Layer (Fin 1) (Fin 1), 0 < weight (fun _ => none) r := fun _ => by norm_num [weight]
  obtain ⟨y, hy, hya, _⟩ := C69_global_sizes regular_line regular_line (fun _ => none) hw ρ zero_le_one z
  exact ⟨y, hy, hya, C102_order regular_line regular_line (rowwise_simple _) _ (fun r => (hw r).ne') ρ hy s s' (0, 0) ⟨le_rfl, zero_le_one⟩ (by rw [hya]; exact h) 1 ⟨zero_le_one, le_rfl⟩⟩

/-- `C102_order_given`: parameters that depend on time. -/
example (B : ℕ) (y : ℝ → Sys (Fin 3) (Fin B) (Fin 1 × Fin 1)) (hy : Solves (Evolution.field2 (fun _ => simple Real.tanh) (fun _ => simple Real.tanh) (Evolution.given (fun _ => simple Real.tanh) (fun _ => none) fun t _ => t)) 0 1 y)
    (s s' : Fin B) (h : (y 0).2.2 (s, 0, 0) < (y 0).2.2 (s', 0, 0)) : (y 1).2.2 (s, 0, 0) < (y 1).2.2 (s', 0, 0) :=
  C102_order_given regular_line regular_line (rowwise_simple _) (fun _ => none) (θ := fun t _ => t) (by fun_prop) hy s s' (0, 0) ⟨le_rfl, zero_le_one⟩ h 1 ⟨zero_le_one, le_rfl⟩

/-- `C102_forward` and `C102_loss` for the target `quadratic` of the demo: whatever the particles and costates, with steps that are short enough the loss for the samples -2 and -1 is at least 110.25. -/
example (ρ) (q p : Fin 3 × (Fin 1 × Fin 1) → ℝ) : ∃ h₀ : ℝ, 0 < h₀ ∧ ∀ h, 0 < h → h ≤ h₀ → ∀ y z, Training.fcn "quadratic" (-2) = .ok y → Training.fcn "quadratic" (-1) = .ok z → ∀ k : ℝ, 0 ≤ k →
    ∃ l, Descent.lossOf false 100 0.1 [y, z] (Block.forward (lineCfg (autodiffCls (layOne 1 1) (fun _ => simple Real.tanh) fun _ => none) false ρ (solver Converge.rk4 (stepGrid h))) ()
      ⟨some (demoInput [-2, -1]), none, none, none⟩ (lineSt q p)).2 (.ok (some k)) = .ok l ∧ 110.25 ≤ l := by
  have hw : ∀ r : Layer (Fin 1) (Fin 1), 0 < weight (fun _ => none) r := fun _ => by norm_num [weight]
  have hinc : [(0 : ℝ), 1].Pairwise (· < ·) := by simp
  obtain ⟨h₀, h0, key⟩ := C102_forward (H := Unit) (D := Unit) (Θ := Unit) (Rb := Unit) (layOne_ok 1 1) regular_line regular_line (rowwise_simple _) (fun _ => none) hw (n := 3) (by norm_num) q p
    (fun i : Fin ([-2, -1] : List ℝ).length => ([-2, -1] : List ℝ)[i]) C68_methods.2.2.1 (a := 0) (b := 1) zero_le_one
  refine ⟨h₀, h0, fun h hh hle y z hy hz k hk => ?_⟩
  obtain ⟨o, t, r1, r2, r3⟩ := key h hh hle (stepGrid h) _ _ _ (line_isBlock (autodiffCls (layOne 1 1) (fun _ => simple Real.tanh) fun _ => none) rfl rfl false ρ _) rfl rfl (lineSt q p) ((C67_layouts 1 1 1).2 2 le_rfl).1 (.upTo 1) [1]
    ⟨rfl, rfl⟩ rfl hinc (by simp) (stepGrid_suits hh 0 [1] hinc) rfl rfl (demoInput [-2, -1]) (line_initial _ _ _ _ _) ()
  have ey : (-2 : ℝ) ^ 2 + 3 / (1 + (-2) ^ 2) = y := by simpa [Training.fcn] using hy
  have ez : (-1 : ℝ) ^ 2 + 3 / (1 + (-1) ^ 2) = z := by simpa [Training.fcn] using hz
  subst ey ez
  obtain ⟨l, l1, l2⟩ := C102_loss r3 r2 (target := [(-2) ^ 2 + 3 / (1 + (-2) ^ 2), (-1) ^ 2 + 3 / (1 + (-1) ^ 2)]) rfl (i := ⟨0, by simp⟩) (j := ⟨1, by simp⟩) (by simp) (by norm_num) false (sw := 100) (nw := 0.1) (by norm_num) (by norm_num) hk
  rw [r1]
  refine ⟨l, l1, le_trans ?_ l2⟩
  norm_num

/-- `C102_forward_rnn` for a batch of any numbers. -/
example (ρ) (q p : Fin 3 × (Fin 1 × Fin 1) → ℝ) (x : List ℝ) : ∃ h₀ : ℝ, 0 < h₀ ∧ ∀ h, 0 < h → h ≤ h₀ →
    ∃ o t, (Block.forward (lineCfg (rnnCls (layOne 1 1) (fun _ => simple Real.tanh) fun _ => none) true ρ (solver Converge.rk4 (stepGrid h))) () ⟨some (demoInput x), none, none, none⟩ (lineSt q p)).2 = .ok o ∧
      o.result = .tensor t ∧ Keeps (fun i : Fin x.length => x[i]) t (.upTo 1) := by
  have hinc : [(0 : ℝ), 1].Pairwise (· < ·) := by simp
  obtain ⟨h₀, h0, key⟩ := C102_forward_rnn (H := Unit) (D := Unit) (Θ := Unit) (Rb := Unit) (layOne_ok 1 1) regular_line regular_line (rowwise_simple _) (fun _ => none) (n := 3) (by norm_num) q p
    (fun i : Fin x.length => x[i]) C68_methods.2.2.1 (a := 0) (b := 1) zero_le_one
  exact ⟨h₀, h0, fun h hh hle => key h hh hle (stepGrid h) _ _ _ (line_isBlock (rnnCls (layOne 1 1) (fun _ => simple Real.tanh) fun _ => none) rfl rfl true ρ _) rfl rfl rfl (lineSt q p) ((C67_layouts 1 1 1).2 2 le_rfl).1 (.upTo 1) [1]
    ⟨rfl, rfl⟩ rfl hinc (by simp) (stepGrid_suits hh 0 [1] hinc) rfl rfl (demoInput x) (line_initial _ _ _ _ _) ()⟩

/-- `C102_reverse` with ten particles and the default weights. -/
example : ∃ q p : Fin 10 × Two (Fin 1) (Fin 1) (Fin 1) → ℝ, ∃ y : ℝ → Sys2 (Fin 10) (Fin 2) _ _,
    Solves (Evolution.field2 turning turning (Evolution.given turning (fun _ => none) fun _ => directParameters (turning (Fin 10)) (fun _ => none) 0 q p)) 0 1 y ∧
      (y 0).2.2 (0, .inl (0, 0)) < (y 0).2.2 (1, .inl (0, 0)) ∧ (y 1).2.2 (1, .inl (0, 0)) < (y 1).2.2 (0, .inl (0, 0)) := by
  obtain ⟨q, p, h⟩ := C102_reverse (fun _ => none) (fun _ => by norm_num [weight]) (n := 10) (by norm_num)
  obtain ⟨y, h1, _, _, h2, h3⟩ := h 2 ![3, 5]
  refine ⟨q, p, y, h1, ?_, ?_⟩
  · rw [(h2 0).1, (h2 1).1]; norm_num
  · rw [h3, h3]; norm_num

end Verif.Ordering
