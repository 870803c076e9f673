import Verif.Adjoint.Props
import Verif.Converge.Classes
import Verif.Models.Props

/-!
# C84 in an example: where the adjoint method returns the derivative and where it does not
-/

namespace Verif.Adjoint
open Set Verif.Converge Verif.Shooting Verif.Evolution Verif.Models

/-- One coordinate. -/
abbrev Line := Fin 1 × Fin 1

/-- One layer, one particle and one sample with one feature. -/
abbrev One := Sys2 (Fin 1) (Fin 1) Line Line

/-- The class of `AutoShootingIntegrandModelSimple`. -/
abbrev layer1 (nl : ℝ → ℝ) : Class Line (Layer (Fin 1) (Fin 1)) := fun _ => simple nl

/-- The prediction at the last time. -/
noncomputable def lastValue : Fin 2 → One →L[ℝ] ℝ
  | 0 => 0
  | 1 => (ContinuousLinearMap.proj (0, (0, 0))).comp ((ContinuousLinearMap.snd ℝ _ _).comp (ContinuousLinearMap.snd ℝ _ _))

theorem total_lastValue (v : Fin 2 → One) : total (n := 1) lastValue v = (v 1).2.2 (0, (0, 0)) := by
  simp [total, Fin.sum_univ_two, lastValue]

/-- Without weights the samples move along straight lines. -/
theorem straight {nl : ℝ → ℝ} {w : Layer (Fin 1) (Fin 1) → Option ℝ} {θ : Layer (Fin 1) (Fin 1) → ℝ} (hθ : θ (0, some 0) = 0) {y : ℝ → One} (hy : Solves (field2 (layer1 nl) (layer1 nl) (given (layer1 nl) w fun _ => θ)) 0 1 y) :
    (y 1).2.2 (0, (0, 0)) = (y 0).2.2 (0, (0, 0)) + θ (0, none) := by
  have h : ∀ t ∈ Icc (0 : ℝ) 1, HasDerivWithinAt (fun t => (y t).2.2 (0, (0, 0)) - t * θ (0, none)) 0 (Icc 0 1) t := fun t ht => by
    have h1 := hasDerivWithinAt_pi.1 (hasFDerivAt_snd.comp_hasDerivWithinAt t (hasFDerivAt_snd.comp_hasDerivWithinAt t (hy t ht))) (0, (0, 0))
    have h2 := h1.sub ((hasDerivWithinAt_id t (Icc 0 1)).mul_const (θ (0, none)))
    refine h2.congr_deriv ?_
    simp [field2, given, layer1, simple, single, linear, map, one, hθ]
  have := (convex_Icc (0 : ℝ) 1).norm_image_sub_le_of_norm_hasDerivWithin_le (C := 0) h (fun t _ => by simp) (left_mem_Icc.2 zero_le_one) (right_mem_Icc.2 zero_le_one)
  simp only [zero_mul, norm_le_zero_iff] at this
  linarith

/-- The parameters of a particle at the origin: no weights, and the bias is the costate. -/
theorem origin_params {nl : ℝ → ℝ} (hd : DifferentiableAt ℝ nl 0) (h0 : nl 0 = 0) (ρ : Layer (Fin 1) (Fin 1) → ℝ) (p : Fin 1 × Line → ℝ) :
    directParameters (layer1 nl (Fin 1)) (fun _ => none) ρ 0 p (0, some 0) = 0 ∧ directParameters (layer1 nl (Fin 1)) (fun _ => none) ρ 0 p (0, none) = p (0, (0, 0)) := by
  have := (C34_simple (ι := Fin 1) (C := Fin 1) (nl := nl) (dnl := fun _ => deriv nl 0) (q := 0) (fun _ _ _ => hd.hasDerivAt) (w := fun _ => none) (fun _ => by norm_num [weight]) ρ p).1
  rw [show layer1 nl (Fin 1) = simple nl from rfl, this]
  constructor
  · simp [divideByWeight, simpleParams, layer, t, outerRow, map, one, h0]
  · simp [divideByWeight, simpleParams, layer, one]

/-- C84 fails in RNN mode (`use_particle_rnn_mode` with `--adjoint`): one particle at the origin, the loss is the prediction at time 1.  Its derivative with respect to the costate is 1; the adjoint
method returns 0, so that a training step does not change particles or costates. -/
theorem C84_rnn_wrong {nl : ℝ → ℝ} (hs : ContDiff ℝ 2 nl) (hn : Tame nl) (h0 : nl 0 = 0) (ρ : ℝ → (Layer (Fin 1) (Fin 1) → ℝ) × (Layer (Fin 1) (Fin 1) → ℝ))
    {Y : Inputs (Fin 1) (Fin 1) Line Line (Layer (Fin 1) (Fin 1)) 1 → ℝ → One} (hY : Forward .firstParticles (layer1 nl) (layer1 nl) (fun _ => none) ρ (fun _ => 0) 0 1 Y) (p x : Fin 1 × Line → ℝ) (θ) :
    (∀ c : ℝ, (Y ((0, fun _ => c, x), θ) 1).2.2 (0, (0, 0)) = x (0, (0, 0)) + c) ∧
    ∃ G : One →L[ℝ] ℝ, Backward (func .firstParticles (layer1 nl) (layer1 nl) (fun _ => none) ρ (held .firstParticles (layer1 nl) (fun _ => none) (ρ 0).1 (fun _ => 0) ((0, p, x), θ))) (Y ((0, p, x), θ)) [(0, 0), (1, lastValue 1)] G ∧
      (∀ dq dp dθ, (returned G : Inputs (Fin 1) (Fin 1) Line Line (Layer (Fin 1) (Fin 1)) 1 →L[ℝ] ℝ) ((dq, dp, 0), dθ) = 0) ∧
      ¬ HasFDerivAt (fun l => (Y l 1).2.2 (0, (0, 0))) (returned G) ((0, p, x), θ) := by
  have hf : Regular (layer1 nl) := (C69_classes (E := Fin 1) hs hn).1
  have hd : DifferentiableAt ℝ nl 0 := (hs.differentiable (by norm_num)) 0
  have hval : ∀ c : ℝ, (Y ((0, fun _ => c, x), θ) 1).2.2 (0, (0, 0)) = x (0, (0, 0)) + c := fun c => by
    obtain ⟨h1, h2⟩ := hY ((0, fun _ => c, x), θ)
    obtain ⟨e1, e2⟩ := origin_params hd h0 (ρ 0).1 fun _ => c
    have := straight (w := fun _ => none) (θ := directParameters (layer1 nl (Fin 1)) (fun _ => none) (ρ 0).1 0 fun _ => c) e1 h1
    rw [this, h2, e2]
  have hτ : Monotone (![0, 1] : Fin 2 → ℝ) := by
    intro i j hij
    fin_cases i <;> fin_cases j <;> simp_all
  have hC := contDiff_given (ι := Fin 1) (β := Fin 1) (n := 1) (hf.linear (Fin 1)).affine (smooth_one hf (Fin 1)) (hf.linear (Fin 1)).affine (smooth_one hf (Fin 1)).less (fun _ => none)
    (contDiff_const (c := directParameters (layer1 nl (Fin 1)) (fun _ => none) (ρ 0).1 0 p) : ContDiff ℝ (1 : ℕ) fun _ : ℝ => _)
  obtain ⟨G, hG⟩ := C84_backward_exists hC (hY ((0, p, x), θ)).1 hτ le_rfl le_rfl lastValue
  have hG' := hG
  rw [show (List.ofFn fun i : Fin 2 => ((![0, 1] : Fin 2 → ℝ) i, lastValue i)) = [(0, lastValue 0), (1, lastValue 1)] by simp] at hG'
  have hz := C84_no_signal (ι := Fin 1) (β := Fin 1) (by simp) hf hf (fun _ => none) ρ hY ((0, p, x), θ) hτ rfl le_rfl (ℓ := lastValue) (fun i dq dp => by fin_cases i <;> simp [lastValue]) hG
  refine ⟨hval, G, hG', hz, fun hbad => ?_⟩
  have hp : p = fun _ => p (0, (0, 0)) := by
    funext k
    rw [Subsingleton.elim k (0, (0, 0))]
  have h1 := hbad.hasLineDerivAt ((0, fun _ => 1, 0), 0)
  unfold HasLineDerivAt at h1
  rw [hz] at h1
  have e : (fun c : ℝ => (Y (((0, p, x), θ) + c • ((0, fun _ => 1, 0), 0)) 1).2.2 (0, (0, 0))) = fun c => x (0, (0, 0)) + (p (0, (0, 0)) + c) := by
    funext c
    rw [← hval]
    have : (((0, p, x), θ) + c • ((0, fun _ => 1, 0), 0) : Inputs (Fin 1) (Fin 1) Line Line (Layer (Fin 1) (Fin 1)) 1) = ((0, fun _ => p (0, (0, 0)) + c, x), θ) := by
      refine Prod.ext (Prod.ext ?_ (Prod.ext ?_ ?_)) ?_
      · simp
      · funext k
        rw [hp]
        simp
      · simp
      · simp
    rw [this]
  rw [e] at h1
  have h2 : HasDerivAt (fun c : ℝ => x (0, (0, 0)) + (p (0, (0, 0)) + c)) 1 0 := ((hasDerivAt_id (0 : ℝ)).const_add _).const_add _
  exact one_ne_zero (h2.unique h1)

/-- C84 fails for parameters that are optimised directly (`use_particle_free_rnn_mode` with `--adjoint`): no weights, the loss is the prediction at time 1.  Its derivative with respect to the bias is
1; the adjoint method returns nothing for the parameters. -/
theorem C84_direct_wrong {nl : ℝ → ℝ} (hs : ContDiff ℝ 2 nl) (hn : Tame nl) (ρ : ℝ → (Layer (Fin 1) (Fin 1) → ℝ) × (Layer (Fin 1) (Fin 1) → ℝ))
    {Y : Inputs (Fin 1) (Fin 1) Line Line (Layer (Fin 1) (Fin 1)) 1 → ℝ → One} (hY : Forward .direct (layer1 nl) (layer1 nl) (fun _ => none) ρ (fun _ => 0) 0 1 Y) (z : One) :
    (∀ c : ℝ, (Y (z, fun _ r => if r = (0, none) then c else 0) 1).2.2 (0, (0, 0)) = z.2.2 (0, (0, 0)) + c) ∧
    ∃ G : One →L[ℝ] ℝ, Backward (func .direct (layer1 nl) (layer1 nl) (fun _ => none) ρ (held .direct (layer1 nl) (fun _ => none) (ρ 0).1 (fun _ => (0 : Fin 1)) (z, 0))) (Y (z, 0)) [(0, 0), (1, lastValue 1)] G ∧
      (∀ dθ, (returned G : Inputs (Fin 1) (Fin 1) Line Line (Layer (Fin 1) (Fin 1)) 1 →L[ℝ] ℝ) (0, dθ) = 0) ∧ ¬ HasFDerivAt (fun l => (Y l 1).2.2 (0, (0, 0))) ((returned G : Inputs (Fin 1) (Fin 1) Line Line (Layer (Fin 1) (Fin 1)) 1 →L[ℝ] ℝ)) (z, 0) := by
  have hf : Regular (layer1 nl) := (C69_classes (E := Fin 1) hs hn).1
  have hval : ∀ c : ℝ, (Y (z, fun _ r => if r = (0, none) then c else 0) 1).2.2 (0, (0, 0)) = z.2.2 (0, (0, 0)) + c := fun c => by
    obtain ⟨h1, h2⟩ := hY (z, fun _ r => if r = (0, none) then c else 0)
    have := straight (w := fun _ => none) (θ := fun r => if r = (0, none) then c else 0) (by simp) h1
    rw [this, h2]
    simp
  have hτ : Monotone (![0, 1] : Fin 2 → ℝ) := by
    intro i j hij
    fin_cases i <;> fin_cases j <;> simp_all
  have hC := contDiff_given (ι := Fin 1) (β := Fin 1) (n := 1) (hf.linear (Fin 1)).affine (smooth_one hf (Fin 1)) (hf.linear (Fin 1)).affine (smooth_one hf (Fin 1)).less (fun _ => none)
    (contDiff_const (c := (0 : Layer (Fin 1) (Fin 1) → ℝ)) : ContDiff ℝ (1 : ℕ) fun _ : ℝ => _)
  obtain ⟨G, hG⟩ := C84_backward_exists hC (hY (z, 0)).1 hτ le_rfl le_rfl lastValue
  have hG' := hG
  rw [show (List.ofFn fun i : Fin 2 => ((![0, 1] : Fin 2 → ℝ) i, lastValue i)) = [(0, lastValue 0), (1, lastValue 1)] by simp] at hG'
  have hz : ∀ dθ, (returned G : Inputs (Fin 1) (Fin 1) Line Line (Layer (Fin 1) (Fin 1)) 1 →L[ℝ] ℝ) (0, dθ) = 0 := fun dθ => map_zero G
  refine ⟨hval, G, hG', hz, fun hbad => ?_⟩
  have h1 := hbad.hasLineDerivAt (0, fun _ r => if r = (0, none) then 1 else 0)
  unfold HasLineDerivAt at h1
  rw [hz] at h1
  have e : (fun c : ℝ => (Y ((z, 0) + c • (0, fun _ r => if r = (0, none) then 1 else 0)) 1).2.2 (0, (0, 0))) = fun c => z.2.2 (0, (0, 0)) + c := by
    funext c
    rw [← hval]
    have : ((z, 0) + c • (0, fun _ r => if r = (0, none) then 1 else 0) : Inputs (Fin 1) (Fin 1) Line Line (Layer (Fin 1) (Fin 1)) 1) = (z, fun _ r => if r = (0, none) then c else 0) := by
      refine Prod.ext ?_ ?_
      · simp
      · funext i r
        simp
    rw [this]
  rw [e] at h1
  exact one_ne_zero (((hasDerivAt_id (0 : ℝ)).const_add _).unique h1)

/-- `C84_forward_exists`, `C84_backward_exists` and `C84_particles` for up-down blocks with `tanh`, three outputs and any numbers of particles and samples: the adjoint method has a result and it is the
derivative of the loss. -/
example (n B : ℕ) (l : Inputs (Fin (n + 1)) (Fin B) (Two (Fin 1) (Fin 2) (Fin 6)) (Two (Fin 1) (Fin 2) (Fin 6)) (UpDownPar (Fin 2) (Fin 6)) 1)
    (ℓ : Fin 3 → Sys2 (Fin (n + 1)) (Fin B) (Two (Fin 1) (Fin 2) (Fin 6)) (Two (Fin 1) (Fin 2) (Fin 6)) →L[ℝ] ℝ) :
    ∃ Y G, Forward .particles (fun _ => upDown Real.tanh) (fun _ => upDown Real.tanh) (fun _ => none) (fun _ => (0, 0)) (fun _ => (0 : Fin 1)) 0 1 Y ∧
      HasFDerivAt (fun l => ∑ i : Fin 3, ℓ i (Y l (![0, 1 / 2, 1] i))) (returned G) l := by
  have hf : Regular (fun _ => upDown Real.tanh : Class (Two (Fin 1) (Fin 2) (Fin 6)) _) := (C69_classes (C := Fin 1) (D := Fin 2) (E := Fin 6) (contDiff_tanh (n := 2)) tame_tanh).2.1
  have hw : ∀ r : UpDownPar (Fin 2) (Fin 6), 0 < weight (fun _ => none) r := fun r => by norm_num [weight]
  obtain ⟨Y, hY⟩ := C84_forward_exists (ι := Fin (n + 1)) (β := Fin B) .particles hf hf (fun _ => none) hw (fun _ => (0, 0)) zero_le_one
  have hτ : Monotone (![0, 1 / 2, 1] : Fin 3 → ℝ) := by
    intro i j hij
    fin_cases i <;> fin_cases j <;> (simp_all; try norm_num)
  have hC := contDiff_autodiff (ι := Fin (n + 1)) (β := Fin B) (n := 1) (f := fun _ => upDown Real.tanh) (g := fun _ => upDown Real.tanh) (hf.linear (Fin (n + 1))).affine (smooth_one hf (Fin (n + 1))) (hf.linear (Fin B)).affine (smooth_one hf (Fin B)).less (fun _ => none) (fun r => (hw r).ne') fun _ => (0, 0)
  obtain ⟨G, hG⟩ := C84_backward_exists hC (hY l).1 hτ le_rfl le_rfl ℓ
  refine ⟨Y, G, hY, ?_⟩
  have := C84_particles hf hf (fun _ => none) hw (fun _ => (0, 0)) (fun _ => 0) hY l hτ rfl le_rfl (total ℓ).hasFDerivAt hG
  simpa [total] using this

/-- `C84_samples_partial` and `C84_direct_partial`: `tanh`, the loss is the prediction at time 1. -/
example (m : Source) (hm : m ≠ .particles) (n B : ℕ) (q p : Fin (n + 1) × Line → ℝ) (x : Fin B × Line → ℝ) (θ : Fin 1 → Layer (Fin 1) (Fin 1) → ℝ) (ℓ : Sys2 (Fin (n + 1)) (Fin B) Line Line →L[ℝ] ℝ) :
    ∃ Y G, Forward m (layer1 Real.tanh) (layer1 Real.tanh) (fun _ => none) (fun _ => (0, 0)) (fun _ => (0 : Fin 1)) 0 1 Y ∧
      HasFDerivAt (fun x => ℓ (Y ((q, p, x), θ) 1)) ((returned G : Inputs (Fin (n + 1)) (Fin B) Line Line (Layer (Fin 1) (Fin 1)) 1 →L[ℝ] ℝ).comp
        ((ContinuousLinearMap.inl ℝ _ _).comp ((ContinuousLinearMap.inr ℝ _ _).comp (ContinuousLinearMap.inr ℝ _ _)))) x := by
  have hf : Regular (layer1 Real.tanh) := (C69_classes (E := Fin 1) (contDiff_tanh (n := 2)) tame_tanh).1
  have hw : ∀ r : Layer (Fin 1) (Fin 1), 0 < weight (fun _ => none) r := fun r => by norm_num [weight]
  obtain ⟨Y, hY⟩ := C84_forward_exists (ι := Fin (n + 1)) (β := Fin B) m hf hf (fun _ => none) hw (fun _ => (0, 0)) zero_le_one
  have hτ : Monotone (![0, 1] : Fin 2 → ℝ) := by
    intro i j hij
    fin_cases i <;> fin_cases j <;> simp_all
  obtain ⟨θ', h⟩ := func_held (β := Fin B) (K' := Line) hm (layer1 Real.tanh) (layer1 Real.tanh) (fun _ => none) (fun _ => (0, 0)) 0 q p θ
  have hC := contDiff_given (ι := Fin (n + 1)) (β := Fin B) (n := 1) (hf.linear _).affine (smooth_one hf _) (hf.linear _).affine (smooth_one hf _).less (fun _ => none)
    (contDiff_const (c := θ') : ContDiff ℝ (1 : ℕ) fun _ : ℝ => θ')
  have hs := (hY ((q, p, x), θ)).1
  rw [h x] at hs
  obtain ⟨G, hG⟩ := C84_backward_exists hC hs hτ le_rfl le_rfl ![0, ℓ]
  rw [← h x] at hG
  refine ⟨Y, G, hY, ?_⟩
  have := C84_samples_partial hm hf hf (fun _ => none) (fun _ => (0, 0)) hY q p x θ hτ rfl le_rfl (total ![0, ℓ]).hasFDerivAt hG
  simpa [total, Fin.sum_univ_two] using this

/-- The hypotheses of `C84_rnn_wrong` and `C84_direct_wrong` hold for `tanh`. -/
example : (∃ Y, Forward (ι := Fin 1) (β := Fin 1) .firstParticles (layer1 Real.tanh) (layer1 Real.tanh) (fun _ => none) (fun _ => (0, 0)) (fun _ => (0 : Fin 1)) 0 1 Y) ∧
    (∃ Y, Forward (ι := Fin 1) (β := Fin 1) .direct (layer1 Real.tanh) (layer1 Real.tanh) (fun _ => none) (fun _ => (0, 0)) (fun _ => (0 : Fin 1)) 0 1 Y) ∧ Real.tanh 0 = 0 := by
  have hf : Regular (layer1 Real.tanh) := (C69_classes (E := Fin 1) (contDiff_tanh (n := 2)) tame_tanh).1
  exact ⟨C84_forward_exists _ hf hf _ (fun r => by norm_num [weight]) _ zero_le_one, C84_forward_exists _ hf hf _ (fun r => by norm_num [weight]) _ zero_le_one, Real.tanh_zero⟩

end Verif.Adjoint
