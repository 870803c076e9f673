import Verif.Descent.Lemmas
import Verif.Backprop.Instance

/-!
# C101 with gradients from the adjoint method
-/

namespace Verif.Descent
open Set Verif Verif.Tensor Verif.Assembly Verif.Flow Verif.Converge Verif.Adjoint Verif.Shooting Verif.Evolution Verif.Models Verif.Whole

variable {ι β K K' P : Type} [Fintype ι] [Fintype β] [Fintype K] [Fintype K'] [Fintype P]

/-- C101: with `use_adjoint_integration` the gradients are not those of the computed outputs, but for all small step sizes of the solver a direction that goes downhill by the gradients of the adjoint method
goes downhill for the loss of the computed outputs: a small step along it lowers that loss. -/
theorem C101_adjoint [Nonempty ι] {f : Class K P} (hf : Regular f) (hf3 : SmoothRhs 3 (f ι)) {g : Class K' P} (hg : Regular g) (w : P → Option ℝ) (hw : ∀ r, 0 < weight w r)
    (ρ : ℝ → (P → ℝ) × (P → ℝ)) {T : Tableau} (hT : T.Consistent) {a b : ℝ} {Y : Inputs ι β K K' P 1 → ℝ → Sys2 ι β K K'} (hY : Forward .particles f g w ρ (fun _ => 0) a b Y) (l : Inputs ι β K K' P 1) {n : ℕ}
    {τ : Fin (n + 1) → ℝ} (hτ : StrictMono τ) (h0 : τ 0 = a) (hb : τ (Fin.last n) ≤ b) {L : (Fin (n + 1) → Sys2 ι β K K') → ℝ} (hL : ContDiff ℝ 2 L) {ℓ : Fin (n + 1) → Sys2 ι β K K' →L[ℝ] ℝ}
    (hℓ : HasFDerivAt L (Adjoint.total ℓ) fun i => Y l (τ i)) {A : Sys2 ι β K K' →L[ℝ] ℝ}
    (hA : Backward (func .particles f g w ρ (held .particles f w (ρ a).1 (fun _ => (0 : Fin 1)) l)) (Y l) (List.ofFn fun i => (τ i, ℓ i)) A)
    {d : Inputs ι β K K' P 1} (hd : 0 < returned A d) :
    ∃ h₀ : ℝ, 0 < h₀ ∧ ∀ h, 0 < h → h ≤ h₀ → ∀ G : List ℝ → List ℝ, Suits h G a (List.ofFn τ).tail →
      ∃ N : Inputs ι β K K' P 1 → Fin (n + 1) → Sys2 ι β K K',
        (∀ l, runSys (func .particles f g w ρ (held .particles f w (ρ a).1 (fun _ => (0 : Fin 1)) l)) (solver T G (List.ofFn τ)) [l.1] = .ok (List.ofFn (N l))) ∧
        ∃ η₀ : ℝ, 0 < η₀ ∧ ∀ η, 0 < η → η < η₀ → L (N (l - η • d)) < L (N l) := by
  obtain ⟨C, h₀, hC, hp, key⟩ := Backprop.C85_adjoint hf hf3 hg w hw ρ hT hY l hτ h0 hb hL hℓ hA
  have hv : 0 ≤ ‖d‖ := norm_nonneg d
  refine ⟨min h₀ (returned A d / (2 * (C * ‖d‖ + 1))), lt_min hp (by positivity), fun h hh hle G hG => ?_⟩
  obtain ⟨N, h1, D', h2, h3⟩ := key h hh (hle.trans (min_le_left _ _)) G hG
  refine ⟨N, h1, ?_⟩
  have h4 : |D' d - returned A d| ≤ C * h * ‖d‖ := by
    have := (D' - returned A).le_opNorm d
    rw [_root_.sub_apply, Real.norm_eq_abs] at this
    exact this.trans (mul_le_mul_of_nonneg_right h3 hv)
  have h5 := hle.trans (min_le_right _ _)
  rw [le_div_iff₀ (by positivity)] at h5
  have h6 := (abs_le.1 h4).1
  have hpos : 0 < D' d := by nlinarith
  obtain ⟨η₀, e1, e2⟩ := mem_nhdsGT_iff_exists_Ioo_subset.1 (falls h2 hpos)
  exact ⟨η₀, e1, fun η a b => e2 ⟨a, b⟩⟩

/-- `C101_adjoint` for up-down blocks with `tanh`, RK4 and the grid of the option `step_size`: for the squared distance of the first coordinate of all samples from targets `c` at time 1 the adjoint method has
gradients, and every direction along which they are positive is a direction of descent. -/
example (n B : ℕ) (l : Inputs (Fin (n + 1)) (Fin B) (Two (Fin 1) (Fin 2) (Fin 6)) (Two (Fin 1) (Fin 2) (Fin 6)) (UpDownPar (Fin 2) (Fin 6)) 1) (c : Fin B → ℝ) :
    ∃ A : Sys2 (Fin (n + 1)) (Fin B) (Two (Fin 1) (Fin 2) (Fin 6)) (Two (Fin 1) (Fin 2) (Fin 6)) →L[ℝ] ℝ,
    ∀ d : Inputs (Fin (n + 1)) (Fin B) (Two (Fin 1) (Fin 2) (Fin 6)) (Two (Fin 1) (Fin 2) (Fin 6)) (UpDownPar (Fin 2) (Fin 6)) 1, 0 < returned A d → ∃ h₀ : ℝ, 0 < h₀ ∧ ∀ h, 0 < h → h ≤ h₀ →
      ∃ N : Inputs (Fin (n + 1)) (Fin B) (Two (Fin 1) (Fin 2) (Fin 6)) (Two (Fin 1) (Fin 2) (Fin 6)) (UpDownPar (Fin 2) (Fin 6)) 1 → Fin 2 → Sys2 (Fin (n + 1)) (Fin B) (Two (Fin 1) (Fin 2) (Fin 6)) (Two (Fin 1) (Fin 2) (Fin 6)),
        ∃ η₀ : ℝ, 0 < η₀ ∧ ∀ η, 0 < η → η < η₀ → ∑ j, ((N (l - η • d) 1).2.2 (j, .inl (0, 0)) - c j) ^ 2 < ∑ j, ((N l 1).2.2 (j, .inl (0, 0)) - c j) ^ 2 := by
  have hf : Regular (fun _ => upDown Real.tanh : Class (Two (Fin 1) (Fin 2) (Fin 6)) _) := (C69_classes (C := Fin 1) (D := Fin 2) (E := Fin 6) (contDiff_tanh (n := 2)) tame_tanh).2.1
  have hw : ∀ r : UpDownPar (Fin 2) (Fin 6), 0 < weight (fun _ => none) r := fun r => by norm_num [weight]
  obtain ⟨Y, hY⟩ := C84_forward_exists (ι := Fin (n + 1)) (β := Fin B) .particles hf hf (fun _ => none) hw (fun _ => (0, 0)) zero_le_one
  have hτ : StrictMono (![0, 1] : Fin 2 → ℝ) := by
    intro i j hij
    fin_cases i <;> fin_cases j <;> simp_all
  have hL : ContDiff ℝ 2 fun v : Fin 2 → Sys2 (Fin (n + 1)) (Fin B) (Two (Fin 1) (Fin 2) (Fin 6)) (Two (Fin 1) (Fin 2) (Fin 6)) => ∑ j, ((v 1).2.2 (j, .inl (0, 0)) - c j) ^ 2 := by fun_prop
  have hC := contDiff_autodiff (f := fun _ => upDown Real.tanh) (g := fun _ => upDown Real.tanh) (ι := Fin (n + 1)) (β := Fin B) (n := 1) (hf.linear _).affine (smooth_one hf (Fin (n + 1))) (hf.linear _).affine (smooth_one hf (Fin B)).less (fun _ => none) (fun r => (hw r).ne') fun _ => (0, 0)
  have hℓ := Backprop.total_single (fderiv ℝ (fun v : Fin 2 → Sys2 (Fin (n + 1)) (Fin B) (Two (Fin 1) (Fin 2) (Fin 6)) (Two (Fin 1) (Fin 2) (Fin 6)) => ∑ j, ((v 1).2.2 (j, .inl (0, 0)) - c j) ^ 2)
    fun i => Y l (![0, 1] i))
  obtain ⟨A, hA⟩ := C84_backward_exists hC (hY l).1 hτ.monotone (le_refl (0 : ℝ)) (le_refl (1 : ℝ)) _
  refine ⟨A, fun d hd => ?_⟩
  obtain ⟨h₀, hp, key⟩ := C101_adjoint hf (smooth_upDown (n := 3) (contDiff_tanh (n := 3))) hf (fun _ => none) hw (fun _ => (0, 0)) C68_methods.2.2.1 hY l hτ rfl (b := 1) le_rfl hL
    (hℓ.symm ▸ (hL.differentiable (by norm_num) _).hasFDerivAt) hA hd
  refine ⟨h₀, hp, fun h hh hle => ?_⟩
  obtain ⟨N, -, h2⟩ := key h hh hle (stepGrid h) (by simpa using stepGrid_suits hh 0 [1] (by simp))
  exact ⟨N, h2⟩

end Verif.Descent
