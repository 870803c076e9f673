import Verif.Backprop.Props
import Verif.Adjoint.Instance
import Verif.Converge.Instance

/-!
# C85 in an example: where the two ways to compute gradients differ
-/

namespace Verif.Backprop
open Set Verif Verif.Tensor Verif.Assembly Verif.Flow Verif.Converge Verif.Adjoint Verif.Shooting Verif.Evolution Verif.Models Verif.Whole

/-- C85: in the example of `C84_rnn_wrong` (RNN mode, one particle at the origin, the loss is the prediction at time 1) the adjoint method returns 0 for every change of the costate; differentiating through the
steps of any consistent solver gives, for all small step sizes, more than 1/2 for the change of the costate by 1. -/
theorem C85_rnn_differ {nl : ℝ → ℝ} (hs : ContDiff ℝ 3 nl) (hn : Tame nl) (h0 : nl 0 = 0) (ρ : ℝ → (Layer (Fin 1) (Fin 1) → ℝ) × (Layer (Fin 1) (Fin 1) → ℝ))
    {Y : Inputs (Fin 1) (Fin 1) Line Line (Layer (Fin 1) (Fin 1)) 1 → ℝ → One} (hY : Forward .firstParticles (layer1 nl) (layer1 nl) (fun _ => none) ρ (fun _ => 0) 0 1 Y) (p x : Fin 1 × Line → ℝ) (θ)
    {T : Tableau} (hT : T.Consistent) :
    (∃ A : One →L[ℝ] ℝ, Backward (func .firstParticles (layer1 nl) (layer1 nl) (fun _ => none) ρ (held .firstParticles (layer1 nl) (fun _ => none) (ρ 0).1 (fun _ => 0) ((0, p, x), θ))) (Y ((0, p, x), θ)) [(0, 0), (1, lastValue 1)] A ∧
      (returned A : Inputs (Fin 1) (Fin 1) Line Line (Layer (Fin 1) (Fin 1)) 1 →L[ℝ] ℝ) ((0, fun _ => 1, 0), 0) = 0) ∧
    ∃ h₀ : ℝ, 0 < h₀ ∧ ∀ h, 0 < h → h ≤ h₀ → ∀ G : List ℝ → List ℝ, Suits h G 0 [1] →
      ∃ N : Inputs (Fin 1) (Fin 1) Line Line (Layer (Fin 1) (Fin 1)) 1 → Fin 2 → One,
        (∀ l, runSys (func .firstParticles (layer1 nl) (layer1 nl) (fun _ => none) ρ (held .firstParticles (layer1 nl) (fun _ => none) (ρ 0).1 (fun _ => 0) l)) (solver T G [0, 1]) [l.1] = .ok [N l 0, N l 1]) ∧
        ∃ D : Inputs (Fin 1) (Fin 1) Line Line (Layer (Fin 1) (Fin 1)) 1 →L[ℝ] ℝ, HasFDerivAt (fun l => (N l 1).2.2 (0, (0, 0))) D ((0, p, x), θ) ∧ 1 / 2 < D ((0, fun _ => 1, 0), 0) := by
  have hs2 : ContDiff ℝ 2 nl := hs.of_le (by norm_num)
  have hf : Regular (layer1 nl) := (C69_classes (E := Fin 1) hs2 hn).1
  have hf3 : SmoothRhs 3 (layer1 nl (Fin 1)) := smooth_simple (n := 3) hs
  obtain ⟨hval, A, hA, hz, -⟩ := C84_rnn_wrong hs2 hn h0 ρ hY p x θ
  refine ⟨⟨A, hA, hz _ _ _⟩, ?_⟩
  have hτ : StrictMono (![0, 1] : Fin 2 → ℝ) := by
    intro i j hij
    fin_cases i <;> fin_cases j <;> simp_all
  have hw : ∀ r : Layer (Fin 1) (Fin 1), 0 < weight (fun _ => none) r := fun r => by norm_num [weight]
  obtain ⟨D, hD, C, h₀, hC, hp, key⟩ := C85_sources (ι := Fin 1) (β := Fin 1) .firstParticles hf hf3 hf (fun _ => none) hw ρ hT hY ((0, p, x), θ) hτ rfl (b := 1) le_rfl
    (L := fun v => (v 1).2.2 (0, (0, 0))) (by fun_prop)
  have hp' : p = fun _ => p (0, (0, 0)) := by
    funext k
    rw [Subsingleton.elim k (0, (0, 0))]
  have hD1 : D ((0, fun _ => 1, 0), 0) = 1 := by
    have h1 := hD.hasLineDerivAt ((0, fun _ => 1, 0), 0)
    unfold HasLineDerivAt at h1
    have e : (fun c : ℝ => (Y (((0, p, x), θ) + c • ((0, fun _ => 1, 0), 0)) 1).2.2 (0, (0, 0))) = fun c => x (0, (0, 0)) + (p (0, (0, 0)) + c) := by
      funext c
      rw [← hval]
      have : (((0, p, x), θ) + c • ((0, fun _ => 1, 0), 0) : Inputs (Fin 1) (Fin 1) Line Line (Layer (Fin 1) (Fin 1)) 1) = ((0, fun _ => p (0, (0, 0)) + c, x), θ) := by
        refine Prod.ext (Prod.ext ?_ (Prod.ext ?_ ?_)) ?_
        · simp
        · funext k
          rw [hp']
          simp
        · simp
        · simp
      rw [this]
    have h2 : HasDerivAt (fun c : ℝ => x (0, (0, 0)) + (p (0, (0, 0)) + c)) 1 0 := ((hasDerivAt_id (0 : ℝ)).const_add _).const_add _
    rw [← e] at h2
    exact h1.unique h2
  have hv : (0 : ℝ) ≤ ‖(((0, fun _ => 1, 0), 0) : Inputs (Fin 1) (Fin 1) Line Line (Layer (Fin 1) (Fin 1)) 1)‖ := norm_nonneg _
  generalize hvd : (((0, fun _ => 1, 0), 0) : Inputs (Fin 1) (Fin 1) Line Line (Layer (Fin 1) (Fin 1)) 1) = v at *
  refine ⟨min h₀ (1 / (4 * (C * ‖v‖ + 1))), by positivity, fun h hh hle G hG => ?_⟩
  obtain ⟨N, h1, D', h2, h3⟩ := key h hh (hle.trans (min_le_left _ _)) G (by simpa using hG)
  refine ⟨N, fun l => by simpa using h1 l, D', h2, ?_⟩
  have h4 : |D' v - D v| ≤ C * h * ‖v‖ := by
    have := (D' - D).le_opNorm v
    rw [_root_.sub_apply, Real.norm_eq_abs] at this
    exact this.trans (mul_le_mul_of_nonneg_right h3 hv)
  have h5 := hle.trans (min_le_right _ _)
  rw [le_div_iff₀ (by positivity)] at h5
  rw [hD1] at h4
  have := (abs_le.1 h4).1
  nlinarith

/-- C85: in the example of `C84_direct_wrong` (parameters that are optimised directly, no weights, the loss is the prediction at time 1) the adjoint method returns 0 for every change of the parameters; differentiating
through the steps of any consistent solver gives, for all small step sizes, more than 1/2 for the change of the bias by 1. -/
theorem C85_direct_differ {nl : ℝ → ℝ} (hs : ContDiff ℝ 3 nl) (hn : Tame nl) (ρ : ℝ → (Layer (Fin 1) (Fin 1) → ℝ) × (Layer (Fin 1) (Fin 1) → ℝ))
    {Y : Inputs (Fin 1) (Fin 1) Line Line (Layer (Fin 1) (Fin 1)) 1 → ℝ → One} (hY : Forward .direct (layer1 nl) (layer1 nl) (fun _ => none) ρ (fun _ => 0) 0 1 Y) (z : One)
    {T : Tableau} (hT : T.Consistent) :
    (∃ A : One →L[ℝ] ℝ, Backward (func .direct (layer1 nl) (layer1 nl) (fun _ => none) ρ (held .direct (layer1 nl) (fun _ => none) (ρ 0).1 (fun _ => (0 : Fin 1)) (z, 0))) (Y (z, 0)) [(0, 0), (1, lastValue 1)] A ∧
      (returned A : Inputs (Fin 1) (Fin 1) Line Line (Layer (Fin 1) (Fin 1)) 1 →L[ℝ] ℝ) (0, fun _ r => if r = (0, none) then 1 else 0) = 0) ∧
    ∃ h₀ : ℝ, 0 < h₀ ∧ ∀ h, 0 < h → h ≤ h₀ → ∀ G : List ℝ → List ℝ, Suits h G 0 [1] →
      ∃ N : Inputs (Fin 1) (Fin 1) Line Line (Layer (Fin 1) (Fin 1)) 1 → Fin 2 → One,
        (∀ l, runSys (func .direct (layer1 nl) (layer1 nl) (fun _ => none) ρ (held .direct (layer1 nl) (fun _ => none) (ρ 0).1 (fun _ => 0) l)) (solver T G [0, 1]) [l.1] = .ok [N l 0, N l 1]) ∧
        ∃ D : Inputs (Fin 1) (Fin 1) Line Line (Layer (Fin 1) (Fin 1)) 1 →L[ℝ] ℝ, HasFDerivAt (fun l => (N l 1).2.2 (0, (0, 0))) D (z, 0) ∧ 1 / 2 < D (0, fun _ r => if r = (0, none) then 1 else 0) := by
  have hs2 : ContDiff ℝ 2 nl := hs.of_le (by norm_num)
  have hf : Regular (layer1 nl) := (C69_classes (E := Fin 1) hs2 hn).1
  have hf3 : SmoothRhs 3 (layer1 nl (Fin 1)) := smooth_simple (n := 3) hs
  obtain ⟨hval, A, hA, hz, -⟩ := C84_direct_wrong hs2 hn ρ hY z
  refine ⟨⟨A, hA, hz _⟩, ?_⟩
  have hτ : StrictMono (![0, 1] : Fin 2 → ℝ) := by
    intro i j hij
    fin_cases i <;> fin_cases j <;> simp_all
  have hw : ∀ r : Layer (Fin 1) (Fin 1), 0 < weight (fun _ => none) r := fun r => by norm_num [weight]
  obtain ⟨D, hD, C, h₀, hC, hp, key⟩ := C85_sources (ι := Fin 1) (β := Fin 1) .direct hf hf3 hf (fun _ => none) hw ρ hT hY (z, 0) hτ rfl (b := 1) le_rfl
    (L := fun v => (v 1).2.2 (0, (0, 0))) (by fun_prop)
  have hD1 : D (0, fun _ r => if r = (0, none) then 1 else 0) = 1 := by
    have h1 := hD.hasLineDerivAt (0, fun _ r => if r = (0, none) then 1 else 0)
    unfold HasLineDerivAt at h1
    have e : (fun c : ℝ => (Y ((z, 0) + c • (0, fun _ r => if r = (0, none) then 1 else 0)) 1).2.2 (0, (0, 0))) = fun c => z.2.2 (0, (0, 0)) + c := by
      funext c
      rw [← hval]
      have : ((z, 0) + c • (0, fun _ r => if r = (0, none) then 1 else 0) : Inputs (Fin 1) (Fin 1) Line Line (Layer (Fin 1) (Fin 1)) 1) = (z, fun _ r => if r = (0, none) then c else 0) := by
        refine Prod.ext ?_ ?_
        · simp
        · funext i r
          simp
      rw [this]
    have h2 : HasDerivAt (fun c : ℝ => z.2.2 (0, (0, 0)) + c) 1 0 := (hasDerivAt_id (0 : ℝ)).const_add _
    rw [← e] at h2
    exact h1.unique h2
  have hv : (0 : ℝ) ≤ ‖((0, fun _ r => if r = (0, none) then 1 else 0) : Inputs (Fin 1) (Fin 1) Line Line (Layer (Fin 1) (Fin 1)) 1)‖ := norm_nonneg _
  generalize hvd : ((0, fun _ r => if r = (0, none) then 1 else 0) : Inputs (Fin 1) (Fin 1) Line Line (Layer (Fin 1) (Fin 1)) 1) = v at *
  refine ⟨min h₀ (1 / (4 * (C * ‖v‖ + 1))), by positivity, fun h hh hle G hG => ?_⟩
  obtain ⟨N, h1, D', h2, h3⟩ := key h hh (hle.trans (min_le_left _ _)) G (by simpa using hG)
  refine ⟨N, fun l => by simpa using h1 l, D', h2, ?_⟩
  have h4 : |D' v - D v| ≤ C * h * ‖v‖ := by
    have := (D' - D).le_opNorm v
    rw [_root_.sub_apply, Real.norm_eq_abs] at this
    exact this.trans (mul_le_mul_of_nonneg_right h3 hv)
  have h5 := hle.trans (min_le_right _ _)
  rw [le_div_iff₀ (by positivity)] at h5
  rw [hD1] at h4
  have := (abs_le.1 h4).1
  nlinarith

/-- `C85_sources` for up-down blocks with `tanh`, RK4 and the grid of the option `step_size`, whatever the source of the parameters: forward passes with exact solutions exist, and so do the two derivatives of the
squared distance of the first coordinate of all samples from targets `d` at three times. -/
example (m : Source) (n B : ℕ) (l : Inputs (Fin (n + 1)) (Fin B) (Two (Fin 1) (Fin 2) (Fin 6)) (Two (Fin 1) (Fin 2) (Fin 6)) (UpDownPar (Fin 2) (Fin 6)) 1) (d : Fin 3 → Fin B → ℝ) :
    ∃ Y, Forward m (fun _ => upDown Real.tanh) (fun _ => upDown Real.tanh) (fun _ => none) (fun _ => (0, 0)) (fun _ => (0 : Fin 1)) 0 1 Y ∧
    ∃ D : Inputs (Fin (n + 1)) (Fin B) (Two (Fin 1) (Fin 2) (Fin 6)) (Two (Fin 1) (Fin 2) (Fin 6)) (UpDownPar (Fin 2) (Fin 6)) 1 →L[ℝ] ℝ,
      HasFDerivAt (fun l => ∑ i : Fin 3, ∑ j, ((Y l (![0, 1 / 2, 1] i)).2.2 (j, .inl (0, 0)) - d i j) ^ 2) D l ∧ ∃ C h₀ : ℝ, 0 < h₀ ∧ ∀ h, 0 < h → h ≤ h₀ →
      ∃ N : _ → Fin 3 → _, (∀ l, runSys (func m (fun _ => upDown Real.tanh) (fun _ => upDown Real.tanh) (fun _ => none) (fun _ => (0, 0)) (held m (fun _ => upDown Real.tanh) (fun _ => none) 0 (fun _ => (0 : Fin 1)) l))
          (solver Converge.rk4 (stepGrid h) (List.ofFn ![0, 1 / 2, 1])) [l.1] = .ok (List.ofFn (N l))) ∧
        ∃ D' : Inputs (Fin (n + 1)) (Fin B) (Two (Fin 1) (Fin 2) (Fin 6)) (Two (Fin 1) (Fin 2) (Fin 6)) (UpDownPar (Fin 2) (Fin 6)) 1 →L[ℝ] ℝ,
          HasFDerivAt (fun l => ∑ i : Fin 3, ∑ j, ((N l i).2.2 (j, .inl (0, 0)) - d i j) ^ 2) D' l ∧ ‖D' - D‖ ≤ C * h := by
  have hf : Regular (fun _ => upDown Real.tanh : Class (Two (Fin 1) (Fin 2) (Fin 6)) _) := (C69_classes (C := Fin 1) (D := Fin 2) (E := Fin 6) (contDiff_tanh (n := 2)) tame_tanh).2.1
  have hw : ∀ r : UpDownPar (Fin 2) (Fin 6), 0 < weight (fun _ => none) r := fun r => by norm_num [weight]
  obtain ⟨Y, hY⟩ := C84_forward_exists (ι := Fin (n + 1)) (β := Fin B) m hf hf (fun _ => none) hw (fun _ => (0, 0)) zero_le_one
  have hτ : StrictMono (![0, 1 / 2, 1] : Fin 3 → ℝ) := by
    intro i j hij
    fin_cases i <;> fin_cases j <;> (simp_all; try norm_num)
  obtain ⟨D, hD, C, h₀, -, hp, key⟩ := C85_sources m hf (smooth_upDown (n := 3) (contDiff_tanh (n := 3))) hf (fun _ => none) hw (fun _ => (0, 0)) C68_methods.2.2.1 hY l hτ rfl (b := 1) le_rfl
    (L := fun v => ∑ i : Fin 3, ∑ j, ((v i).2.2 (j, .inl (0, 0)) - d i j) ^ 2) (by fun_prop)
  refine ⟨Y, hY, D, hD, C, h₀, hp, fun h hh hle => ?_⟩
  obtain ⟨N, h1, h2⟩ := key h hh hle (stepGrid h) (stepGrid_suits hh 0 _ (by simp; norm_num))
  exact ⟨N, h1, h2⟩

/-- The hypotheses of `C85_rnn_differ` and `C85_direct_differ` hold for `tanh`, the midpoint rule and the grid of the option `step_size`. -/
example (h : ℝ) (hh : 0 < h) : ContDiff ℝ 3 Real.tanh ∧ Tame Real.tanh ∧ Real.tanh 0 = 0 ∧ midpoint.Consistent ∧ Suits h (stepGrid h) 0 [1] ∧
    ∃ Y, Forward (ι := Fin 1) (β := Fin 1) .firstParticles (layer1 Real.tanh) (layer1 Real.tanh) (fun _ => none) (fun _ => (0, 0)) (fun _ => (0 : Fin 1)) 0 1 Y := by
  have hf : Regular (layer1 Real.tanh) := (C69_classes (E := Fin 1) (contDiff_tanh (n := 2)) tame_tanh).1
  exact ⟨contDiff_tanh (n := 3), tame_tanh, Real.tanh_zero, C68_methods.2.1, stepGrid_suits hh 0 _ (by simp), C84_forward_exists _ hf hf _ (fun r => by norm_num [weight]) _ zero_le_one⟩

section
variable (q p : Fin 5 × Two (Fin 1) (Fin 2) (Fin 6) → ℝ) (B : ℕ) (X : Tensor ℝ) (hw : X.WF) (hs : X.shape = [B, 1, 2])

include hw hs in
/-- `C85_forward` (and with it `C85_rate`; `C85_limit` asks less) for a block of the up-down class with `tanh`, five particles, the method of Runge and Kutta and steps of size `h`, any batch: the loss is the squared distance of the first coordinate of
the predictions from targets `d`. -/
example (ρ) (d : Fin B → ℝ) : ∃ (g : Sys2 (Fin 5) (Fin B) (Two (Fin 1) (Fin 2) (Fin 6)) (Two (Fin 1) (Fin 2) (Fin 6)) →L[ℝ] ℝ) (C h₀ : ℝ), 0 < h₀ ∧ ∀ h, 0 < h → h ≤ h₀ →
    ∃ N : Sys2 (Fin 5) (Fin B) (Two (Fin 1) (Fin 2) (Fin 6)) (Two (Fin 1) (Fin 2) (Fin 6)) → Fin 2 → Sys2 (Fin 5) (Fin B) (Two (Fin 1) (Fin 2) (Fin 6)) (Two (Fin 1) (Fin 2) (Fin 6)),
      Block.forward (udCfg (autodiffCls (layTwo 1 2 6) (fun _ => upDown Real.tanh) fun _ => none) false ρ (solver Converge.rk4 (stepGrid h))) () ⟨some X, none, none, none⟩ (udSt q p) =
        report (layTwo 1 2 6) (layTwo 1 2 6) "b" "q1" [1, 2] (udSt q p) (.upTo 1) (.ok [N (q, p, dataTwo X B 1 2 6) 0, N (q, p, dataTwo X B 1 2 6) 1]) ∧
      ∃ g', HasFDerivAt (fun z => ∑ j, ((N z 1).2.2 (j, .inl (0, 0)) - d j) ^ 2) g' (q, p, dataTwo X B 1 2 6) ∧ ‖g' - g‖ ≤ C * h := by
  have hf := regular_tanh (C := Fin 1) (D := Fin 2) (E := Fin 6)
  have hwt : ∀ r : UpDownPar (Fin 2) (Fin 6), 0 < weight (fun _ => none) r := fun r => by norm_num [weight]
  obtain ⟨y, hy, hya, -⟩ := C69_global_sizes (ι := Fin 5) (β := Fin B) hf hf (fun _ => none) hwt (fun _ => (0, 0)) zero_le_one (q, p, dataTwo X B 1 2 6)
  have hC := contDiff_autodiff (ι := Fin 5) (β := Fin B) (n := 2) (f := fun _ => upDown Real.tanh) (g := fun _ => upDown Real.tanh) (hf.linear (Fin 5)).affine (smooth_upDown (n := 3) (contDiff_tanh (n := 3))) (hf.linear (Fin B)).affine (hf.smooth (Fin B)) (fun _ => none) (fun r => (hwt r).ne') fun _ => (0, 0)
  have hτ : StrictMono (![0, 1] : Fin 2 → ℝ) := by
    intro i j hij
    fin_cases i <;> fin_cases j <;> simp_all
  have hL : ContDiff ℝ 2 fun v : Fin 2 → Sys2 (Fin 5) (Fin B) (Two (Fin 1) (Fin 2) (Fin 6)) (Two (Fin 1) (Fin 2) (Fin 6)) => ∑ j, ((v 1).2.2 (j, .inl (0, 0)) - d j) ^ 2 := by fun_prop
  have hℓ := total_single (fderiv ℝ (fun v : Fin 2 → Sys2 (Fin 5) (Fin B) (Two (Fin 1) (Fin 2) (Fin 6)) (Two (Fin 1) (Fin 2) (Fin 6)) => ∑ j, ((v 1).2.2 (j, .inl (0, 0)) - d j) ^ 2) fun i => y ((![0, 1] : Fin 2 → ℝ) i))
  obtain ⟨g, hg⟩ := C84_backward_exists (hC.of_le (by norm_num)) hy hτ.monotone le_rfl (le_refl (1 : ℝ)) fun i =>
    (fderiv ℝ (fun v : Fin 2 → Sys2 (Fin 5) (Fin B) (Two (Fin 1) (Fin 2) (Fin 6)) (Two (Fin 1) (Fin 2) (Fin 6)) => ∑ j, ((v 1).2.2 (j, .inl (0, 0)) - d j) ^ 2) fun i => y ((![0, 1] : Fin 2 → ℝ) i)).comp (ContinuousLinearMap.single ℝ (fun _ => _) i)
  obtain ⟨C, h₀, -, hp, key⟩ := C85_forward (H := Unit) (D := Unit) (Θ := Unit) (Rb := Unit) (c := autodiffCls (layTwo 1 2 6) (fun _ => upDown Real.tanh) fun _ => none) (layTwo_ok 1 2 6) (layTwo_ok 1 2 6)
    (indep_autodiff _ (fun n => (hf.linear (Fin n)).affine) _) (r0 := 0) hC C68_methods.2.2.1 hy hτ rfl le_rfl hL (hℓ.symm ▸ (hL.differentiable (by norm_num) _).hasFDerivAt) hg
  refine ⟨g, C, h₀, hp, fun h hh hle => ?_⟩
  obtain ⟨N, h1, h2⟩ := key h hh hle (stepGrid h) (stepGrid_suits hh 0 _ (by simp))
  rw [hya] at h2
  refine ⟨N, ?_, h2⟩
  have := h1 _ _ (udCfg (autodiffCls (layTwo 1 2 6) (fun _ => upDown Real.tanh) fun _ => none) false ρ (solver Converge.rk4 (stepGrid h)))
    (ud_isBlock _ rfl rfl false ρ _) rfl rfl (udSt q p) ((C67_layouts 1 2 6).2 2 le_rfl).2.1 (.upTo 1) ⟨rfl, rfl⟩ (by simp [Block.When.times]) (q, p, dataTwo X B 1 2 6) rfl rfl X (ud_initial _ _ _ _ B X hw hs)
    [1, 2] (by simp [autodiffCls, layTwo, udCfg]) ()
  rw [show (List.ofFn (N (q, p, dataTwo X B 1 2 6))) = [N (q, p, dataTwo X B 1 2 6) 0, N (q, p, dataTwo X B 1 2 6) 1] by simp] at this
  exact this

end

end Verif.Backprop
