import Verif.Symmetry.Mirror

/-!
# C99: mirrored and turned images

For the convolutional classes: mirroring or turning all images (particles, costates and data) and renaming the channels moves the whole
evolution along.
-/

set_option linter.unusedSectionVars false

namespace Verif.Symmetry
open Verif.Shooting Verif.Models Verif.Evolution Verif.Conv

variable {ι β C E : Type} [Fintype ι] [Fintype C] [Fintype E] {h w : Nat}

/-- C99, parameters: moving the images moves the entries of the kernels and leaves the norm penalty unchanged. -/
theorem C99_penalty {nl : ℝ → ℝ} (hnl : Differentiable ℝ nl) {ε : ℝ} (hε : 0 < ε) {π : Equiv.Perm (Px h w)} (hπ : Motion h w π)
    (γ : Equiv.Perm C) (δ : Equiv.Perm E) (δ' : Equiv.Perm C) {a1 b1 a2 b2 : ℝ} :
    (∀ (wt : ConvPar C E → Option ℝ) θ0 θ1 (q p : ι × Imgs C E h w → ℝ), (∀ x, 0 < weight wt x) → PerKernel (fun r => wt (.inl r)) a1 b1 →
      PerKernel (fun r => wt (.inr r)) a2 b2 →
      kineticEnergy wt (directParameters (upDownConv nl) wt θ1 (mapRows (moveImages π γ δ) q) (mapRows (moveImages π γ δ) p)) =
        kineticEnergy wt (directParameters (upDownConv nl) wt θ0 q p)) ∧
    (∀ (wt : ConvPar C C → Option ℝ) θ0 θ1 (q p : ι × Imgs C C h w → ℝ), (∀ x, 0 < weight wt x) → PerKernel (fun r => wt (.inl r)) a1 b1 →
      PerKernel (fun r => wt (.inr r)) a2 b2 →
      kineticEnergy wt (directParameters (convBatch nl ε) wt θ1 (mapRows (moveImages π γ δ') q) (mapRows (moveImages π γ δ') p)) =
        kineticEnergy wt (directParameters (convBatch nl ε) wt θ0 q p)) := by
  obtain ⟨κ, hk⟩ := hπ.along
  obtain ⟨-, -, -, -, -, -, -, -, -, hf, -⟩ := C60_classes (C := C) (D := C) (E := E) (h := h) (w := w) hnl 0 hε
  obtain ⟨-, -, -, -, -, -, -, -, -, -, hg⟩ := C60_classes (C := C) (D := C) (E := C) (h := h) (w := w) hnl 0 hε
  refine ⟨fun wt θ0 θ1 q p hw h1 h2 => ?_, fun wt θ0 θ1 q p hw h1 h2 => ?_⟩
  · rw [moveImages_eq]
    exact (C63_parameters hf hw (symmetry_upDownConv nl hk γ δ h1 h2) θ0 θ1 q p).2
  · rw [moveImages_eq]
    exact (C63_parameters hg hw (symmetry_convBatch nl ε hk γ δ' h1 h2) θ0 θ1 q p).2

/-- C99: moving all images at the start moves all images at every stage and step of every explicit method. -/
theorem C99_evolution [Nonempty ι] {nl : ℝ → ℝ} (hnl : Differentiable ℝ nl) {ε : ℝ} (hε : 0 < ε) {π : Equiv.Perm (Px h w)}
    (hπ : Motion h w π) (γ : Equiv.Perm C) (δ : Equiv.Perm E) (δ' : Equiv.Perm C) {a1 b1 a2 b2 : ℝ} :
    (∀ (wt : ConvPar C E → Option ℝ) r r', (∀ x, 0 < weight wt x) → PerKernel (fun r => wt (.inl r)) a1 b1 →
      PerKernel (fun r => wt (.inr r)) a2 b2 →
      MovesAlong (ι := ι) (β := β) (K := Imgs C E h w) (field (fun _ => upDownConv nl) (autodiff (fun _ => upDownConv nl) wt r))
        (field (fun _ => upDownConv nl) (autodiff (fun _ => upDownConv nl) wt r')) (moveImages π γ δ)) ∧
    (∀ (wt : ConvPar C C → Option ℝ) r r', (∀ x, 0 < weight wt x) → PerKernel (fun r => wt (.inl r)) a1 b1 →
      PerKernel (fun r => wt (.inr r)) a2 b2 →
      MovesAlong (ι := ι) (β := β) (K := Imgs C C h w) (field (fun _ => simpleConv nl) (autodiff (fun _ => simpleConv nl) wt r))
        (field (fun _ => simpleConv nl) (autodiff (fun _ => simpleConv nl) wt r')) (moveImages π γ δ') ∧
      MovesAlong (ι := ι) (β := β) (K := Imgs C C h w) (field (fun _ => convBatch nl ε) (autodiff (fun _ => convBatch nl ε) wt r))
        (field (fun _ => convBatch nl ε) (autodiff (fun _ => convBatch nl ε) wt r')) (moveImages π γ δ')) := by
  obtain ⟨κ, hk⟩ := hπ.along
  obtain ⟨-, -, -, -, -, -, -, -, -, hf, -⟩ := C60_classes (C := C) (D := C) (E := E) (h := h) (w := w) hnl 0 hε
  obtain ⟨-, -, -, -, -, -, -, -, -, hs, hg⟩ := C60_classes (C := C) (D := C) (E := C) (h := h) (w := w) hnl 0 hε
  refine ⟨fun wt r r' hw h1 h2 => ?_, fun wt r r' hw h1 h2 => ⟨?_, ?_⟩⟩
  · rw [moveImages_eq]
    exact C63_evolution hf hw (symmetry_upDownConv nl hk γ δ h1 h2) r r'
  · rw [moveImages_eq]
    exact C63_evolution hs hw (symmetry_upDownConv nl hk γ δ' h1 h2) r r'
  · rw [moveImages_eq]
    exact C63_evolution hg hw (symmetry_convBatch nl ε hk γ δ' h1 h2) r r'

/-- C99, predictions: if the images of particles, costates and data of a second run are those of the first run mirrored or turned, the
predicted images are, after any number of Runge–Kutta steps. -/
theorem C99_predictions [Nonempty ι] {nl : ℝ → ℝ} (hnl : Differentiable ℝ nl) {π : Equiv.Perm (Px h w)} (hπ : Motion h w π)
    {a1 b1 a2 b2 : ℝ} (wt : ConvPar C E → Option ℝ) (r r' : ℝ → (ConvPar C E → ℝ) × (ConvPar C E → ℝ)) (hw : ∀ x, 0 < weight wt x)
    (h1 : PerKernel (fun r => wt (.inl r)) a1 b1) (h2 : PerKernel (fun r => wt (.inr r)) a2 b2) (s s' : Sys ι β (Imgs C E h w))
    (hq1 : ∀ i c z, i1 s'.1 i c z = i1 s.1 i c (π z)) (hq2 : ∀ i c z, i2 s'.1 i c z = i2 s.1 i c (π z))
    (hp1 : ∀ i c z, i1 s'.2.1 i c z = i1 s.2.1 i c (π z)) (hp2 : ∀ i c z, i2 s'.2.1 i c z = i2 s.2.1 i c (π z))
    (hx1 : ∀ b c z, i1 s'.2.2 b c z = i1 s.2.2 b c (π z)) (hx2 : ∀ b c z, i2 s'.2.2 b c z = i2 s.2.2 b c (π z))
    (a t : ℝ) (n : ℕ) (b : β) :
    (∀ c z, i1 (rk4 (field (fun _ => upDownConv nl) (autodiff (fun _ => upDownConv nl) wt r')) a t n s').2.2 b c z =
      i1 (rk4 (field (fun _ => upDownConv nl) (autodiff (fun _ => upDownConv nl) wt r)) a t n s).2.2 b c (π z)) ∧
    ∀ e z, i2 (rk4 (field (fun _ => upDownConv nl) (autodiff (fun _ => upDownConv nl) wt r')) a t n s').2.2 b e z =
      i2 (rk4 (field (fun _ => upDownConv nl) (autodiff (fun _ => upDownConv nl) wt r)) a t n s).2.2 b e (π z) := by
  have hs : s' = moveAll (moveImages π (Equiv.refl C) (Equiv.refl E)) s := by
    refine Prod.ext ?_ (Prod.ext ?_ ?_) <;> funext ⟨i, k⟩ <;> rcases k with ⟨c, z⟩ | ⟨c, z⟩
    · exact hq1 i c z
    · exact hq2 i c z
    · exact hp1 i c z
    · exact hp2 i c z
    · exact hx1 i c z
    · exact hx2 i c z
  have h3 := ((C99_evolution (β := β) hnl one_pos hπ (Equiv.refl C) (Equiv.refl E) (Equiv.refl C)).1 wt r r' hw h1 h2).2.2 a t n s
  rw [hs, h3]
  exact ⟨fun _ _ => rfl, fun _ _ => rfl⟩

/-- A quarter turn is a motion. -/
theorem C99_quarter_turn (n : Nat) : ∃ π, Motion n n π ∧ ∀ z : Px n n, π z = (z.2, z.1.rev) :=
  ⟨_, .comp (.transposed n) (.leftRight n n), fun _ => rfl⟩

example : ∃ wt : ConvPar Unit Unit → Option ℝ, (∀ x, 0 < weight wt x) ∧ PerKernel (fun r => wt (.inl r)) 2 1 ∧ PerKernel (fun r => wt (.inr r)) 1 1 :=
  ⟨fun r => match r with | .inl (_, some _) => some 2 | _ => none, fun r => by
    rcases r with ⟨o, _ | j⟩ | ⟨o, _ | j⟩ <;> norm_num [weight], ⟨fun _ _ => rfl, fun _ => rfl⟩, ⟨fun _ _ => rfl, fun _ => rfl⟩⟩

/-- Cyclic translations are not among the motions: at the border the convolution sees zeros, so translating the image does not translate the
result. -/
theorem C99_cyclic_shift_false : ∃ (θ : Kernel Unit Unit → ℝ) (x : T3 Unit Unit (Px 1 3)),
    conv2d θ (fun i c z => x i c (z.1, z.2 + 1)) ≠ fun i c z => conv2d θ x i c (z.1, z.2 + 1) := by
  refine ⟨fun r => if r = ((), some ((), 1, 0)) then 1 else 0, fun _ _ _ => 1, fun he => ?_⟩
  have := congrFun (congrFun (congrFun he ()) ()) (0, 0)
  simp [conv2d, Fin.sum_univ_three, at0] at this

end Verif.Symmetry
