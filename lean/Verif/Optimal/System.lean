import Verif.Optimal.Necessary

/-!
# C82: shooting with one particle per sample represents every optimum
-/

namespace Verif.Optimal
open Set Verif.Shooting Verif.Converge Verif.Evolution

variable {ι β K K' P : Type} [Fintype ι] [Fintype β] [Fintype K] [Fintype K'] [Fintype P]

/-- C82: let `θ` be the best parameters for a loss at the final states `x b`, among all that vary continuously with time.  There are initial costates with which the equations that the library
integrates (particles at `x a`, any samples) produce exactly the parameters `θ t` at all times, move the particles along `x` and the samples as `θ` does. -/
theorem C82_system [Nonempty ι] {f : Class K P} (hf : Regular f) {g : Class K' P} (hg : Regular g) (w : P → Option ℝ) (hw : ∀ r, weight w r ≠ 0) (ρ : ℝ → (P → ℝ) × (P → ℝ)) {Φ : (ι × K → ℝ) → ℝ}
    {θ : ℝ → P → ℝ} {x : ℝ → ι × K → ℝ} {a b : ℝ} (hab : a < b) (hbest : BestFor (f ι) (weight w) Φ θ x a b) {G : ι × K → ℝ} (hΦ : HasGrad Φ G (x b)) :
    ∃ p0 : ι × K → ℝ, ∀ (z : β × K' → ℝ) (y : ℝ → Sys2 ι β K K'), Solves (Evolution.field2 f g (Evolution.autodiff f w ρ)) a b y → y a = (x a, p0, z) →
      (∀ t ∈ Icc a b, (y t).1 = x t ∧ directParameters (f ι) w (ρ t).1 (y t).1 (y t).2.1 = θ t) ∧ Driven (g β) θ (fun t => (y t).2.2) a b := by
  have hd := hbest.1
  obtain ⟨p, tr, hpar, -⟩ := C82_best_is_shooting (hf.linear ι).affine (hf.smooth ι) (hf.growth ι) w hw hab hbest hΦ fun _ => 0
  refine ⟨p a, fun z y hy hya => ?_⟩
  have hC := contDiff_autodiff (β := β) (n := 1) (hf.linear ι).affine (smooth_one hf ι) (hg.linear β).affine (smooth_one hg β).less w hw ρ
  obtain ⟨u, hu, hua⟩ := C82_driven (hg.linear β).affine (hg.smooth β) (hg.growth β) hab.le hd.cont z
  have hsol : Solves (Evolution.field2 f g (Evolution.autodiff f w ρ)) a b fun t => (x t, p t, u t) := by
    intro t ht
    rw [field2_randomness (hf.linear ι).affine g w ρ fun _ => (0, 0)]
    have h1 : HasDerivWithinAt x (f ι (directParameters (f ι) w 0 (x t) (p t)) (x t)) (Icc a b) t := hasDerivWithinAt_pi.2 (tr.state t ht)
    have h2 : HasDerivWithinAt p (costateRhs (f ι) w 0 (x t) (p t)) (Icc a b) t := hasDerivWithinAt_pi.2 (tr.costate t ht)
    have h3 := hu.hasDeriv ht
    rw [hpar t ht] at h3
    exact h1.prodMk (h2.prodMk h3)
  have heq := C68_unique hC hy hsol (by rw [hya, hua])
  constructor
  · intro t ht
    rw [heq t ht]
    refine ⟨rfl, ?_⟩
    rw [hpar t ht, C32_independent_of_initialisation (hf.linear ι).affine w (ρ t).1 0]
  · refine ⟨hd.cont, fun t ht j => ?_⟩
    have h := hu.state t ht j
    have e : ∀ s ∈ Icc a b, (y s).2.2 j = u s j := fun s hs => by rw [heq s hs]
    have h2 := h.congr e (e t ht)
    rwa [show (y t).2.2 = u t by rw [heq t ht]]

/-- C82: with one particle at every sample, the library moves the samples along the best states. -/
theorem C82_one_particle_per_sample [Nonempty ι] {f : Class K P} (hf : Regular f) (w : P → Option ℝ) (hw : ∀ r, weight w r ≠ 0) (ρ : ℝ → (P → ℝ) × (P → ℝ)) {Φ : (ι × K → ℝ) → ℝ}
    {θ : ℝ → P → ℝ} {x : ℝ → ι × K → ℝ} {a b : ℝ} (hab : a < b) (hbest : BestFor (f ι) (weight w) Φ θ x a b) {G : ι × K → ℝ} (hΦ : HasGrad Φ G (x b)) :
    ∃ p0 : ι × K → ℝ, ∀ y : ℝ → Sys ι ι K, Solves (Evolution.field f (Evolution.autodiff f w ρ)) a b y → y a = (x a, p0, x a) → ∀ t ∈ Icc a b, (y t).2.2 = x t := by
  obtain ⟨p0, h⟩ := C82_system (β := ι) hf hf w hw ρ hab hbest hΦ
  refine ⟨p0, fun y hy hya t ht => ?_⟩
  obtain ⟨-, h2⟩ := h (x a) y hy hya
  exact C82_driven_unique (hf.linear ι).affine (hf.smooth ι) (hf.growth ι) hbest.1 h2 (by rw [hya]) t ht

end Verif.Optimal
