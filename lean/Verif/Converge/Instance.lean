import Verif.Converge.Forward

/-!
# C68, C69: concrete cases
-/

namespace Verif.Converge
open Set Verif Verif.Shooting Verif.Evolution Verif.Models Verif.Tensor Verif.Assembly Verif.Flow Verif.Whole Verif.Activation

/-- The up-down class with `tanh`. -/
theorem regular_tanh {C D E : Type} [Fintype C] [Fintype D] [Fintype E] : Regular (fun _ => upDown Real.tanh : Class (Two C D E) _) :=
  (C69_classes (contDiff_tanh (n := 2)) tame_tanh).2.1

/-- `C68_steps`: one step of size 1/2 for `y' = y` from 1: Euler gives 3/2. -/
example : (1 : ℝ) + (1 / 2 : ℝ) • increment Converge.euler (fun _ y => y) (1 / 2) 0 1 = 3 / 2 := by
  rw [(C68_steps (fun _ y => y) (1 / 2) 0 (1 : ℝ)).1]
  norm_num

/-- `C68_grid`: steps of 0.4 up to time 1. -/
example : ∃ k : ℕ, stepGrid 0.4 [0, 1] = (List.range (k + 1)).map (fun i : ℕ => (i : ℝ) * 0.4 + 0) ++ [1] ∧ (k : ℝ) * 0.4 + 0 < 1 ∧ (1 : ℝ) ≤ k * 0.4 + 0 + 0.4 :=
  C68_grid (by norm_num) 0 [1] 1 rfl (by norm_num)

/-- `C68_bad_times`: times in the wrong order. -/
example (T : Tableau) (G : List ℝ → List ℝ) (fld : ℝ → Sys (Fin 1) (Fin 1) (Fin 1) → Sys (Fin 1) (Fin 1) (Fin 1)) (z) :
    runSys fld (solver T G [0, 2, 1]) [z] = .error .assertionError :=
  (C68_bad_times T G fld z).2 0 [2, 1] (by norm_num)

/-- `C69_global` for any number of particles and samples, from time 0 to time 1. -/
example (n B : ℕ) (z : Sys (Fin (n + 1)) (Fin B) (Two (Fin 1) (Fin 2) (Fin 6))) (ρ) :
    ∃ y, Solves (Evolution.field (fun _ => upDown Real.tanh) (Evolution.autodiff (fun _ => upDown Real.tanh) (fun _ => none) ρ)) 0 1 y ∧ y 0 = z ∧
      ∀ y', Solves (Evolution.field (fun _ => upDown Real.tanh) (Evolution.autodiff (fun _ => upDown Real.tanh) (fun _ => none) ρ)) 0 1 y' → y' 0 = z → ∀ t ∈ Icc (0 : ℝ) 1, y' t = y t :=
  C69_global regular_tanh _ (fun _ => by norm_num [weight]) ρ zero_le_one z

/-- `C69_global_rnn`. -/
example (n B : ℕ) (z : Sys (Fin (n + 1)) (Fin B) (Two (Fin 1) (Fin 2) (Fin 6))) (θ) :
    ∃ y, Solves (Evolution.field (fun _ => upDown Real.tanh) (Evolution.given (fun _ => upDown Real.tanh) (fun _ => none) fun _ => θ)) 0 1 y ∧ y 0 = z :=
  let ⟨y, h1, h2, _⟩ := C69_global_rnn regular_tanh (fun _ => none) θ zero_le_one z
  ⟨y, h1, h2⟩

/-- `C69_samples`, `C69_backwards`: two samples that are different at the start are different at the end. -/
example (n B : ℕ) (z : Sys (Fin (n + 1)) (Fin B) (Two (Fin 1) (Fin 2) (Fin 6))) (s s' : Fin B) (k : Two (Fin 1) (Fin 2) (Fin 6)) (hne : z.2.2 (s, k) ≠ z.2.2 (s', k)) :
    ∃ y, Solves (Evolution.field (fun _ => upDown Real.tanh) (Evolution.autodiff (fun _ => upDown Real.tanh) (fun _ => none) fun _ => (0, 0))) 0 1 y ∧ y 0 = z ∧
      ∃ k, (y 1).2.2 (s, k) ≠ (y 1).2.2 (s', k) := by
  obtain ⟨y, h1, h2, _⟩ := C69_global regular_tanh (fun _ => none) (fun _ => by norm_num [weight]) (fun _ => (0, 0)) zero_le_one z
  refine ⟨y, h1, h2, ?_⟩
  by_contra hall
  push Not at hall
  refine hne ?_
  have := C69_samples regular_tanh regular_tanh (rowwise_upDown Real.tanh) (fun _ => none) (fun _ => by norm_num [weight]) (fun _ => (0, 0)) h1 s s' (t := 1) (by simp) hall 0 (by simp) k
  rw [h2] at this
  exact this

section
variable (q p : Fin 5 × Two (Fin 1) (Fin 2) (Fin 6) → ℝ) (B : ℕ) (X : Tensor ℝ) (hw : X.WF) (hs : X.shape = [B, 1, 2])

include hw hs in
/-- `C68_forward_autodiff` (and with it `C68_forward`, `C68_converge`) for a block of the up-down class with `tanh`, five particles, the method of Runge and Kutta and steps of size `h`, any batch. -/
example (ρ) : ∃ (y : ℝ → Sys (Fin 5) (Fin B) (Two (Fin 1) (Fin 2) (Fin 6))) (C h₀ : ℝ), y 0 = (q, p, dataTwo X B 1 2 6) ∧ 0 < h₀ ∧
    Solves (Evolution.field (fun _ => upDown Real.tanh) (Evolution.autodiff (fun _ => upDown Real.tanh) (fun _ => none) fun _ => (0, 0))) 0 1 y ∧
    ∀ h, 0 < h → h ≤ h₀ → ∃ o t, (Block.forward (udCfg (autodiffCls (layTwo 1 2 6) (fun _ => upDown Real.tanh) fun _ => none) false ρ (solver Converge.rk4 (stepGrid h))) ()
        ⟨some X, none, none, none⟩ (udSt q p)).2 = .ok o ∧ o.result = .tensor t ∧
      ∀ (b : Fin B) (j : Fin 2), ∃ v, t.get? [b.1, 0, j.1] = some v ∧ |v - (y 1).2.2 (b, .inl (0, j))| ≤ C * h := by
  obtain ⟨y, hy, hya, C, h₀, _, hp, key⟩ := C68_forward_autodiff (H := Unit) (D := Unit) (Θ := Unit) (Rb := Unit) (layTwo_ok 1 2 6) (regular_tanh (C := Fin 1) (D := Fin 2) (E := Fin 6))
    (fun _ => none) (fun _ => by norm_num [weight]) (n := 5) (B := B) (by norm_num) q p (dataTwo X B 1 2 6) C68_methods.2.2.1 (a := 0) (b := 1) zero_le_one
  refine ⟨y, C, h₀, hya, hp, hy, fun h hh hle => ?_⟩
  have hinc : [(0 : ℝ), 1].Pairwise (· < ·) := by simp
  obtain ⟨o, t, h1, h2, h3⟩ := key h hh hle (stepGrid h) _ _ (udCfg (autodiffCls (layTwo 1 2 6) (fun _ => upDown Real.tanh) fun _ => none) false ρ (solver Converge.rk4 (stepGrid h)))
    (ud_isBlock _ rfl rfl false ρ _) rfl rfl (udSt q p) ((C67_layouts 1 2 6).2 2 le_rfl).2.1 (.upTo 1) [1] ⟨rfl, rfl⟩ rfl hinc (by simp) (stepGrid_suits hh 0 [1] hinc) rfl rfl X
    (ud_initial _ _ _ _ B X hw hs) ()
  exact ⟨o, t, h1, h2, fun b j => h3 b (.inl (0, j)) rfl⟩

include hw hs in
/-- `C68_forward_rnn` for the same block in RNN mode, with Euler's method. -/
example (ρ) : ∃ (y : ℝ → Sys (Fin 5) (Fin B) (Two (Fin 1) (Fin 2) (Fin 6))) (C h₀ : ℝ), y 0 = (q, p, dataTwo X B 1 2 6) ∧ 0 < h₀ ∧
    ∀ h, 0 < h → h ≤ h₀ → ∃ o t, (Block.forward (udCfg (rnnCls (layTwo 1 2 6) (fun _ => upDown Real.tanh) fun _ => none) true ρ (solver Converge.euler (stepGrid h))) ()
        ⟨some X, none, none, none⟩ (udSt q p)).2 = .ok o ∧ o.result = .tensor t ∧
      ∀ (b : Fin B) (j : Fin 2), ∃ v, t.get? [b.1, 0, j.1] = some v ∧ |v - (y 1).2.2 (b, .inl (0, j))| ≤ C * h := by
  obtain ⟨y, hy, hya, C, h₀, _, hp, key⟩ := C68_forward_rnn (H := Unit) (D := Unit) (Θ := Unit) (Rb := Unit) (layTwo_ok 1 2 6) (regular_tanh (C := Fin 1) (D := Fin 2) (E := Fin 6))
    (fun _ => none) (n := 5) (B := B) (by norm_num) q p (dataTwo X B 1 2 6) C68_methods.1 (a := 0) (b := 1) zero_le_one
  refine ⟨y, C, h₀, hya, hp, fun h hh hle => ?_⟩
  have hinc : [(0 : ℝ), 1].Pairwise (· < ·) := by simp
  obtain ⟨o, t, h1, h2, h3⟩ := key h hh hle (stepGrid h) _ _ (udCfg (rnnCls (layTwo 1 2 6) (fun _ => upDown Real.tanh) fun _ => none) true ρ (solver Converge.euler (stepGrid h)))
    (ud_isBlock _ rfl rfl true ρ _) rfl rfl rfl (udSt q p) ((C67_layouts 1 2 6).2 2 le_rfl).2.1 (.upTo 1) [1] ⟨rfl, rfl⟩ rfl hinc (by simp) (stepGrid_suits hh 0 [1] hinc) rfl rfl X
    (ud_initial _ _ _ _ B X hw hs) ()
  exact ⟨o, t, h1, h2, fun b j => h3 b (.inl (0, j)) rfl⟩

end

/-- `C68_forward_analytic`, `C68_exact` for the simple class without nonlinearity: one particle, any batch. -/
example (l : List ℝ) : ∃ (y : ℝ → Sys (Fin 1) (Fin l.length) (Fin 1 × Fin 1)) (C h₀ : ℝ), 0 < h₀ ∧ (y 0).1 = (fun _ => 1) ∧
    ∀ h, 0 < h → h ≤ h₀ → ∃ o t, (Block.forward (demoCfg (solver midpoint (stepGrid h))) () ⟨some (demoInput l), none, none, none⟩ demoSt).2 = .ok o ∧ o.result = .tensor t ∧
      ∀ b : Fin l.length, ∃ v, t.get? [b.1, 0, 0] = some v ∧ |v - (y 1).2.2 (b, (0, 0))| ≤ C * h := by
  have hid : ∀ x : ℝ, HasDerivAt (id : ℝ → ℝ) ((fun _ => 1) x) x := fun x => hasDerivAt_id x
  obtain ⟨y, hy, hya, C, h₀, _, hp, key⟩ := C68_forward_analytic (R := Unit) (H := Unit) (D := Unit) (Θ := Unit) (Rb := Unit) (layOne_ok 1 1)
    (C69_classes (C := Fin 1) (D := Fin 1) (E := Fin 1) contDiff_id tame_identity).1 (fun _ => none) (fun _ => by norm_num [weight]) (n := 1) (B := l.length) one_pos
    (fun _ => simpleParams id) (fun _ => simpleCostate fun _ => 1) ((C68_exact (F := Fin 1) hid one_pos).1 _ fun _ => by norm_num [weight]) (fun _ => 1) (fun _ => 1)
    (fun k => elem (demoInput l) k.1 k.2.1 k.2.2) C68_methods.2.1 (a := 0) (b := 1) zero_le_one
  refine ⟨y, C, h₀, hp, by rw [hya], fun h hh hle => ?_⟩
  have hinc : [(0 : ℝ), 1].Pairwise (· < ·) := by simp
  obtain ⟨o, t, h1, h2, h3⟩ := key h hh hle (stepGrid h) _ _ (demoCfg (solver midpoint (stepGrid h))) (demo_isBlock _) rfl rfl demoSt ((C67_layouts 1 1 1).2 2 le_rfl).1 (.upTo 1) [1]
    ⟨rfl, rfl⟩ rfl hinc (by simp) (stepGrid_suits hh 0 [1] hinc) rfl rfl (demoInput l) (demo_initial _ l) ()
  exact ⟨o, t, h1, h2, fun b => h3 b (0, 0) rfl⟩

/-- `C68_norm_penalty` for times 0, 1/2, 1 and steps of size `h`. -/
example (n B : ℕ) (z : Sys (Fin (n + 1)) (Fin B) (Two (Fin 1) (Fin 2) (Fin 6))) : ∃ C h₀ : ℝ, 0 < h₀ ∧ ∀ h, 0 < h → h ≤ h₀ →
    ∃ ys, runSys (Evolution.field (fun _ => upDown Real.tanh) (Evolution.autodiff (fun _ => upDown Real.tanh) (fun _ => some 3) fun _ => (0, 0))) (solver rk38 (stepGrid h) [0, 1 / 2, 1]) [z] = .ok ys ∧
      ys.length = 3 ∧ ∀ Y ∈ ys, |kineticEnergy (fun _ => some 3) (directParameters (upDown Real.tanh) (fun _ => some 3) 0 Y.1 Y.2.1) -
        kineticEnergy (fun _ => some 3) (directParameters (upDown Real.tanh) (fun _ => some 3) 0 z.1 z.2.1)| ≤ C * h := by
  obtain ⟨C, h₀, _, hp, key⟩ := C68_norm_penalty regular_tanh (fun _ => some 3) (fun _ => by norm_num [weight]) (fun _ => (0, 0)) C68_methods.2.2.2 zero_le_one z
  refine ⟨C, h₀, hp, fun h hh hle => ?_⟩
  have hinc : [(0 : ℝ), 1 / 2, 1].Pairwise (· < ·) := by norm_num
  exact key h hh hle (stepGrid h) [1 / 2, 1] hinc (by norm_num) (stepGrid_suits hh 0 [1 / 2, 1] hinc)

end Verif.Converge
