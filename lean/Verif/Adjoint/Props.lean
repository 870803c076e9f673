import Verif.Adjoint.Lemmas
import Verif.Adjoint.Model
import Mathlib.Analysis.Calculus.FDeriv.Pi
import Mathlib.Analysis.Calculus.FDeriv.Comp
import Mathlib.Analysis.Calculus.FDeriv.Prod
import Mathlib.Analysis.Calculus.LineDeriv.Basic

/-!
# C84: integration with the adjoint method returns the derivative of the loss
-/

namespace Verif.Adjoint
open Set Metric Filter Topology Verif.Converge Verif.Shooting Verif.Evolution

section
variable {E : Type} [NormedAddCommGroup E] [NormedSpace ℝ E] [FiniteDimensional ℝ E]

/-- The derivative of a loss that depends on the values at the times `τ 0, …, τ n`, from its derivatives `ℓ i` with respect to these values. -/
noncomputable def total {n : ℕ} (ℓ : Fin (n + 1) → E →L[ℝ] ℝ) : (Fin (n + 1) → E) →L[ℝ] ℝ := ∑ i, (ℓ i).comp (ContinuousLinearMap.proj i)

/-- C84: for a continuously differentiable equation, solutions `Φ z` for all initial values `z` near `z₀`, any increasing times and any differentiable loss of the values at these times, the backward
pass returns the derivative of the loss with respect to the initial values. -/
theorem C84_adjoint {f : ℝ → E → E} (hf : ContDiff ℝ 1 fun z : ℝ × E => f z.1 z.2) {a b : ℝ} {Φ : E → ℝ → E} {z₀ : E} (hΦ : ∀ᶠ z in 𝓝 z₀, Solves f a b (Φ z) ∧ Φ z a = z)
    {n : ℕ} {τ : Fin (n + 1) → ℝ} (hτ : Monotone τ) (h0 : τ 0 = a) (hb : τ (Fin.last n) ≤ b) {L : (Fin (n + 1) → E) → ℝ} {ℓ : Fin (n + 1) → E →L[ℝ] ℝ}
    (hL : HasFDerivAt L (total ℓ) fun i => Φ z₀ (τ i)) {g : E →L[ℝ] ℝ} (hg : Backward f (Φ z₀) (List.ofFn fun i => (τ i, ℓ i)) g) :
    HasFDerivAt (fun z => L fun i => Φ z (τ i)) g z₀ := by
  have : ProperSpace E := FiniteDimensional.proper ℝ E
  obtain ⟨hy, hya⟩ := hΦ.self_of_nhds
  have hmem : ∀ i, τ i ∈ Icc a b := fun i => ⟨h0 ▸ hτ (Fin.zero_le i), (hτ (Fin.le_last i)).trans hb⟩
  obtain ⟨C, η, hC0, hη, hC⟩ := exists_close_solutions hf hy
  rw [hasFDerivAt_iff_isLittleO, Asymptotics.isLittleO_iff]
  intro ε hε
  obtain ⟨δ, hδ, hpair⟩ := backward_pairing hf hy hg a (by simp [h0]) (by
      simp only [List.mem_ofFn]
      rintro p ⟨i, rfl⟩
      exact hmem i) (by
      rw [List.pairwise_ofFn]
      exact fun i j hij => hτ hij.le) (ε / 2) (by positivity)
  have hL' := (hasFDerivAt_iff_isLittleO.1 hL).def (c := ε / (2 * (C + 1))) (by positivity)
  obtain ⟨r, hr, hball⟩ := Metric.eventually_nhds_iff.1 hL'
  obtain ⟨r', hr', hball'⟩ := Metric.eventually_nhds_iff.1 hΦ
  refine Metric.eventually_nhds_iff.2 ⟨min (min η δ) (min r' (r / (C + 1))), by positivity, fun z hz => ?_⟩
  have hz1 : ‖z - z₀‖ < min (min η δ) (min r' (r / (C + 1))) := by rwa [dist_eq_norm] at hz
  obtain ⟨hzs, hza⟩ := hball' (hz.trans_le ((min_le_right _ _).trans (min_le_left _ _)))
  have hd : ‖Φ z a - Φ z₀ a‖ = ‖z - z₀‖ := by rw [hza, hya]
  have hclose : ∀ i, ‖Φ z (τ i) - Φ z₀ (τ i)‖ ≤ C * ‖z - z₀‖ := fun i => by
    have := hC (Φ z) hzs (by rw [hd]; exact (hz1.le.trans (min_le_left _ _)).trans (min_le_left _ _)) (τ i) (hmem i)
    rwa [hd] at this
  have hnorm : ‖(fun i => Φ z (τ i)) - fun i => Φ z₀ (τ i)‖ ≤ C * ‖z - z₀‖ := (pi_norm_le_iff_of_nonneg (by positivity)).2 hclose
  have h1 := hball (y := fun i => Φ z (τ i)) (by
    rw [dist_eq_norm]
    refine hnorm.trans_lt ?_
    have h2 : ‖z - z₀‖ < r / (C + 1) := hz1.trans_le ((min_le_right _ _).trans (min_le_right _ _))
    rw [lt_div_iff₀ (by positivity)] at h2
    nlinarith [norm_nonneg (z - z₀)])
  have h2 := hpair (Φ z) hzs (by rw [hd]; exact (hz1.le.trans (min_le_left _ _)).trans (min_le_right _ _))
  rw [hd, hza, hya, List.map_ofFn, List.sum_ofFn] at h2
  have e : total ℓ ((fun i => Φ z (τ i)) - fun i => Φ z₀ (τ i)) = ∑ i, ((fun p : ℝ × (E →L[ℝ] ℝ) => p.2 (Φ z p.1 - Φ z₀ p.1)) ∘ fun i => (τ i, ℓ i)) i := by
    simp [total]
  rw [← e] at h2
  rw [Real.norm_eq_abs] at h1 ⊢
  have h3 : ε / (2 * (C + 1)) * ‖(fun i => Φ z (τ i)) - fun i => Φ z₀ (τ i)‖ ≤ ε / 2 * ‖z - z₀‖ := by
    refine (mul_le_mul_of_nonneg_left hnorm (by positivity)).trans ?_
    have h4 : C / (C + 1) ≤ 1 := by rw [div_le_one (by positivity)]; linarith
    calc ε / (2 * (C + 1)) * (C * ‖z - z₀‖) = C / (C + 1) * (ε / 2 * ‖z - z₀‖) := by field_simp
      _ ≤ 1 * (ε / 2 * ‖z - z₀‖) := mul_le_mul_of_nonneg_right h4 (by positivity)
      _ = ε / 2 * ‖z - z₀‖ := one_mul _
  generalize total ℓ ((fun i => Φ z (τ i)) - fun i => Φ z₀ (τ i)) = T at h1 h2
  have e2 : L (fun i => Φ z (τ i)) - L (fun i => Φ z₀ (τ i)) - g (z - z₀) = (L (fun i => Φ z (τ i)) - L (fun i => Φ z₀ (τ i)) - T) + (T - g (z - z₀)) := by ring
  rw [e2]
  refine (abs_add_le _ _).trans ?_
  linarith

/-- C84: the backward pass exists, for every solution, all increasing times and all derivatives of the loss. -/
theorem C84_backward_exists {f : ℝ → E → E} (hf : ContDiff ℝ 1 fun z : ℝ × E => f z.1 z.2) {a b : ℝ} {y : ℝ → E} (hy : Solves f a b y) {n : ℕ} {τ : Fin (n + 1) → ℝ} (hτ : Monotone τ)
    (h0 : a ≤ τ 0) (hb : τ (Fin.last n) ≤ b) (ℓ : Fin (n + 1) → E →L[ℝ] ℝ) : ∃ g, Backward f y (List.ofFn fun i => (τ i, ℓ i)) g := by
  refine exists_backward hf hy.continuousOn _ (by simp) ?_ ?_
  · simp only [List.mem_ofFn]
    rintro p ⟨i, rfl⟩
    exact ⟨h0.trans (hτ (Fin.zero_le i)), (hτ (Fin.le_last i)).trans hb⟩
  · rw [List.pairwise_ofFn]
    exact fun i j hij => hτ hij.le

end

variable {ι β K K' P : Type} [Fintype ι] [Fintype β] [Fintype K] [Fintype K'] [Fintype P]

/-- C84: forward passes have values, whatever the source of the parameters (for parameters that are optimised directly: one set). -/
theorem C84_forward_exists [Nonempty ι] (m : Source) {f : Class K P} (hf : Regular f) {g : Class K' P} (hg : Regular g) (w : P → Option ℝ) (hw : ∀ r, 0 < weight w r) (ρ : ℝ → (P → ℝ) × (P → ℝ)) {a b : ℝ} (hab : a ≤ b) :
    ∃ Y : Inputs ι β K K' P 1 → ℝ → Sys2 ι β K K', Forward m f g w ρ (fun _ => 0) a b Y := by
  have h : ∀ l : Inputs ι β K K' P 1, ∃ y, Solves (func m f g w ρ (held m f w (ρ a).1 (fun _ => 0) l)) a b y ∧ y a = l.1 := fun l => by
    cases m with
    | particles =>
      obtain ⟨y, h1, h2, _⟩ := C69_global_sizes hf hg w hw ρ hab l.1
      exact ⟨y, h1, h2⟩
    | firstParticles =>
      obtain ⟨y, h1, h2, _⟩ := C69_global_rnn_sizes hf hg w (directParameters (f ι) w (ρ a).1 l.1.1 l.1.2.1) hab l.1
      exact ⟨y, h1, h2⟩
    | direct =>
      obtain ⟨y, h1, h2, _⟩ := C69_global_rnn_sizes hf hg w (l.2 0) hab l.1
      exact ⟨y, h1, h2⟩
  choose Y hY using h
  exact ⟨Y, hY⟩

/-- C84: when the parameters come from the particles at every evaluation, what the adjoint method returns is the derivative of the loss with respect to particles, costates and samples, for every
differentiable loss of everything the block returns at any increasing times. -/
theorem C84_particles [Nonempty ι] {f : Class K P} (hf : Regular f) {g : Class K' P} (hg : Regular g) (w : P → Option ℝ) (hw : ∀ r, 0 < weight w r) (ρ : ℝ → (P → ℝ) × (P → ℝ)) {k : ℕ} (when : ℝ → Fin k) {a b : ℝ}
    {Y : Inputs ι β K K' P k → ℝ → Sys2 ι β K K'} (hY : Forward .particles f g w ρ when a b Y) (l : Inputs ι β K K' P k) {n : ℕ} {τ : Fin (n + 1) → ℝ} (hτ : Monotone τ) (h0 : τ 0 = a) (hb : τ (Fin.last n) ≤ b)
    {L : (Fin (n + 1) → Sys2 ι β K K') → ℝ} {ℓ : Fin (n + 1) → Sys2 ι β K K' →L[ℝ] ℝ} (hL : HasFDerivAt L (total ℓ) fun i => Y l (τ i)) {G : Sys2 ι β K K' →L[ℝ] ℝ}
    (hG : Backward (func .particles f g w ρ (held .particles f w (ρ a).1 when l)) (Y l) (List.ofFn fun i => (τ i, ℓ i)) G) :
    HasFDerivAt (fun l => L fun i => Y l (τ i)) (returned G) l := by
  have hab : a ≤ b := h0 ▸ (hτ (Fin.zero_le _)).trans hb
  have hC := contDiff_autodiff (ι := ι) (β := β) (n := 1) (hf.linear ι).affine (smooth_one hf ι) (hg.linear β).affine (smooth_one hg β).less w (fun r => (hw r).ne') ρ
  have hmem : ∀ i, τ i ∈ Icc a b := fun i => ⟨h0 ▸ hτ (Fin.zero_le i), (hτ (Fin.le_last i)).trans hb⟩
  have h1 := C84_adjoint hC (Φ := fun z => Y (z, l.2)) (z₀ := l.1) (Eventually.of_forall fun z => hY (z, l.2)) hτ h0 hb hL hG
  have h2 : HasFDerivAt (fun l' : Inputs ι β K K' P k => L fun i => Y (l'.1, l.2) (τ i)) (returned G) l := h1.comp l hasFDerivAt_fst
  refine h2.congr_of_eventuallyEq (Eventually.of_forall fun l' => ?_)
  change L _ = L _
  congr 1
  funext i
  obtain ⟨y, -, -, hu⟩ := C69_global_sizes hf hg w hw ρ hab l'.1
  rw [hu (Y l') (hY l').1 (hY l').2 _ (hmem i), hu (Y (l'.1, l.2)) (hY (l'.1, l.2)).1 (hY (l'.1, l.2)).2 _ (hmem i)]

omit [Fintype β] [Fintype K'] in
/-- The parameters that are kept do not depend on the samples. -/
theorem func_held {m : Source} (hm : m ≠ .particles) (f : Class K P) (g : Class K' P) (w : P → Option ℝ) (ρ : ℝ → (P → ℝ) × (P → ℝ)) (ρ0 : P → ℝ) (q p : ι × K → ℝ) (θ : Fin 1 → P → ℝ) :
    ∃ θ' : P → ℝ, ∀ x : β × K' → ℝ, func m f g w ρ (held m f w ρ0 (fun _ => 0) ((q, p, x), θ)) = (field2 f g (given f w fun _ => θ') : ℝ → Sys2 ι β K K' → Sys2 ι β K K') := by
  cases m with
  | particles => exact absurd rfl hm
  | firstParticles => exact ⟨directParameters (f ι) w ρ0 q p, fun _ => rfl⟩
  | direct => exact ⟨θ 0, fun _ => rfl⟩

/-- What the adjoint method returns is right for the equations with the kept parameters. -/
theorem kept_right [Nonempty ι] {f : Class K P} (hf : Regular f) {g : Class K' P} (hg : Regular g) (w : P → Option ℝ) (θ : P → ℝ) {a b : ℝ} {S : Set (Sys2 ι β K K')} {Y : Sys2 ι β K K' → ℝ → Sys2 ι β K K'}
    (hY : ∀ z ∈ S, Solves (field2 f g (given f w fun _ => θ)) a b (Y z) ∧ Y z a = z) {z : Sys2 ι β K K'} (hz : z ∈ S) {n : ℕ} {τ : Fin (n + 1) → ℝ} (hτ : Monotone τ) (h0 : τ 0 = a) (hb : τ (Fin.last n) ≤ b)
    {L : (Fin (n + 1) → Sys2 ι β K K') → ℝ} {ℓ : Fin (n + 1) → Sys2 ι β K K' →L[ℝ] ℝ} (hL : HasFDerivAt L (total ℓ) fun i => Y z (τ i)) {G : Sys2 ι β K K' →L[ℝ] ℝ}
    (hG : Backward (field2 f g (given f w fun _ => θ)) (Y z) (List.ofFn fun i => (τ i, ℓ i)) G) :
    ∃ Φ : Sys2 ι β K K' → ℝ → Sys2 ι β K K', (∀ z, Solves (field2 f g (given f w fun _ => θ)) a b (Φ z) ∧ Φ z a = z) ∧ (∀ z ∈ S, Φ z = Y z) ∧ HasFDerivAt (fun z => L fun i => Φ z (τ i)) G z := by
  classical
  have hab : a ≤ b := h0 ▸ (hτ (Fin.zero_le _)).trans hb
  have hC := contDiff_given (ι := ι) (β := β) (n := 1) (hf.linear ι).affine (smooth_one hf ι) (hg.linear β).affine (smooth_one hg β).less w
    (contDiff_const (c := θ) : ContDiff ℝ (1 : ℕ) fun _ : ℝ => θ)
  choose Ψ h1 h2 _ using C69_global_rnn_sizes (ι := ι) (β := β) hf hg w θ hab
  have hall : ∀ z', Solves (field2 f g (given f w fun _ => θ)) a b (if z' ∈ S then Y z' else Ψ z') ∧ (if z' ∈ S then Y z' else Ψ z') a = z' := fun z' => by
    by_cases h : z' ∈ S
    · rw [if_pos h]
      exact hY z' h
    · rw [if_neg h]
      exact ⟨h1 z', h2 z'⟩
  have hin : ∀ z' ∈ S, (if z' ∈ S then Y z' else Ψ z') = Y z' := fun z' h => if_pos h
  refine ⟨fun z' => if z' ∈ S then Y z' else Ψ z', hall, hin, ?_⟩
  refine C84_adjoint hC (Φ := fun z' => if z' ∈ S then Y z' else Ψ z') (Eventually.of_forall hall) hτ h0 hb (ℓ := ℓ) ?_ ?_
  · simp only [hin z hz]
    exact hL
  · simp only [hin z hz]
    exact hG

/-- C84: in RNN mode and for parameters that are optimised directly, the part of the result that belongs to the samples is the derivative of the loss with respect to them. -/
theorem C84_samples_partial [Nonempty ι] {m : Source} (hm : m ≠ .particles) {f : Class K P} (hf : Regular f) {g : Class K' P} (hg : Regular g) (w : P → Option ℝ) (ρ : ℝ → (P → ℝ) × (P → ℝ)) {a b : ℝ}
    {Y : Inputs ι β K K' P 1 → ℝ → Sys2 ι β K K'} (hY : Forward m f g w ρ (fun _ => 0) a b Y) (q p : ι × K → ℝ) (x : β × K' → ℝ) (θ : Fin 1 → P → ℝ) {n : ℕ} {τ : Fin (n + 1) → ℝ} (hτ : Monotone τ) (h0 : τ 0 = a)
    (hb : τ (Fin.last n) ≤ b) {L : (Fin (n + 1) → Sys2 ι β K K') → ℝ} {ℓ : Fin (n + 1) → Sys2 ι β K K' →L[ℝ] ℝ} (hL : HasFDerivAt L (total ℓ) fun i => Y ((q, p, x), θ) (τ i)) {G : Sys2 ι β K K' →L[ℝ] ℝ}
    (hG : Backward (func m f g w ρ (held m f w (ρ a).1 (fun _ => 0) ((q, p, x), θ))) (Y ((q, p, x), θ)) (List.ofFn fun i => (τ i, ℓ i)) G) :
    HasFDerivAt (fun x => L fun i => Y ((q, p, x), θ) (τ i)) ((returned G : Inputs ι β K K' P 1 →L[ℝ] ℝ).comp
      ((ContinuousLinearMap.inl ℝ _ _).comp ((ContinuousLinearMap.inr ℝ _ _).comp (ContinuousLinearMap.inr ℝ _ _)))) x := by
  obtain ⟨θ', h⟩ := func_held (β := β) (K' := K') hm f g w ρ (ρ a).1 q p θ
  rw [h x] at hG
  obtain ⟨Φ, -, he, hd⟩ := kept_right (β := β) hf hg w θ' (S := {z | z.1 = q ∧ z.2.1 = p}) (Y := fun z => Y (z, θ)) (fun z hz => by
    obtain ⟨q', p', x'⟩ := z
    obtain ⟨rfl, rfl⟩ := hz
    have := hY ((q', p', x'), θ)
    rw [h x'] at this
    exact this) (z := (q, p, x)) ⟨rfl, rfl⟩ hτ h0 hb hL hG
  have h1 : HasFDerivAt (fun x : β × K' → ℝ => ((q, p, x) : Sys2 ι β K K')) ((ContinuousLinearMap.inr ℝ (ι × K → ℝ) ((ι × K → ℝ) × (β × K' → ℝ))).comp (ContinuousLinearMap.inr ℝ (ι × K → ℝ) (β × K' → ℝ))) x :=
    (hasFDerivAt_prodMk_right q (p, x)).comp x (hasFDerivAt_prodMk_right p x)
  have h2 := HasFDerivAt.comp x hd h1
  have e : (fun x => L fun i => Y ((q, p, x), θ) (τ i)) = (fun z => L fun i => Φ z (τ i)) ∘ fun x => (q, p, x) := by
    funext x'
    simp only [Function.comp_apply]
    congr 1
    funext i
    exact congrFun (he (q, p, x') ⟨rfl, rfl⟩).symm (τ i)
  rw [e]
  exact h2

/-- C84: for parameters that are optimised directly (one set), the part that belongs to the initial values is right. -/
theorem C84_direct_partial [Nonempty ι] {f : Class K P} (hf : Regular f) {g : Class K' P} (hg : Regular g) (w : P → Option ℝ) (ρ : ℝ → (P → ℝ) × (P → ℝ)) {a b : ℝ}
    {Y : Inputs ι β K K' P 1 → ℝ → Sys2 ι β K K'} (hY : Forward .direct f g w ρ (fun _ => 0) a b Y) (l : Inputs ι β K K' P 1) {n : ℕ} {τ : Fin (n + 1) → ℝ} (hτ : Monotone τ) (h0 : τ 0 = a)
    (hb : τ (Fin.last n) ≤ b) {L : (Fin (n + 1) → Sys2 ι β K K') → ℝ} {ℓ : Fin (n + 1) → Sys2 ι β K K' →L[ℝ] ℝ} (hL : HasFDerivAt L (total ℓ) fun i => Y l (τ i)) {G : Sys2 ι β K K' →L[ℝ] ℝ}
    (hG : Backward (func .direct f g w ρ (held .direct f w (ρ a).1 (fun _ => 0) l)) (Y l) (List.ofFn fun i => (τ i, ℓ i)) G) :
    HasFDerivAt (fun z => L fun i => Y (z, l.2) (τ i)) ((returned G : Inputs ι β K K' P 1 →L[ℝ] ℝ).comp (ContinuousLinearMap.inl ℝ _ _)) l.1 := by
  obtain ⟨Φ, -, he, hd⟩ := kept_right hf hg w (l.2 0) (S := univ) (Y := fun z => Y (z, l.2)) (fun z _ => hY (z, l.2)) (z := l.1) (mem_univ _) hτ h0 hb hL hG
  have e : (fun z => L fun i => Y (z, l.2) (τ i)) = fun z => L fun i => Φ z (τ i) := by
    funext z
    congr 1
    funext i
    exact congrFun (he z (mem_univ _)).symm (τ i)
  rw [e]
  exact hd

/-- C84: in RNN mode and for parameters that are optimised directly, the adjoint method returns zero for particles and costates, for every loss of the predictions (whatever the network, the data
and the times). -/
theorem C84_no_signal [Nonempty ι] {m : Source} (hm : m ≠ .particles) {f : Class K P} (hf : Regular f) {g : Class K' P} (hg : Regular g) (w : P → Option ℝ) (ρ : ℝ → (P → ℝ) × (P → ℝ)) {a b : ℝ}
    {Y : Inputs ι β K K' P 1 → ℝ → Sys2 ι β K K'} (hY : Forward m f g w ρ (fun _ => 0) a b Y) (l : Inputs ι β K K' P 1) {n : ℕ} {τ : Fin (n + 1) → ℝ} (hτ : Monotone τ) (h0 : τ 0 = a)
    (hb : τ (Fin.last n) ≤ b) {ℓ : Fin (n + 1) → Sys2 ι β K K' →L[ℝ] ℝ} (hℓ : ∀ i dq dp, ℓ i (dq, dp, 0) = 0) {G : Sys2 ι β K K' →L[ℝ] ℝ}
    (hG : Backward (func m f g w ρ (held m f w (ρ a).1 (fun _ => 0) l)) (Y l) (List.ofFn fun i => (τ i, ℓ i)) G) (dq dp : ι × K → ℝ) (dθ : Fin 1 → P → ℝ) : returned G ((dq, dp, 0), dθ) = 0 := by
  obtain ⟨⟨q, p, x⟩, θ⟩ := l
  have hab : a ≤ b := h0 ▸ (hτ (Fin.zero_le _)).trans hb
  have hmem : ∀ i, τ i ∈ Icc a b := fun i => ⟨h0 ▸ hτ (Fin.zero_le i), (hτ (Fin.le_last i)).trans hb⟩
  obtain ⟨θ', h⟩ := func_held (β := β) (K' := K') hm f g w ρ (ρ a).1 q p θ
  have hYl := hY ((q, p, x), θ)
  rw [h x] at hG hYl
  obtain ⟨Φ, hs, he, hd⟩ := kept_right (β := β) hf hg w θ' (S := {(q, p, x)}) (Y := fun z => Y (z, θ)) (fun z hz => by
    obtain rfl := hz
    exact hYl) (z := (q, p, x)) rfl hτ h0 hb (total ℓ).hasFDerivAt hG
  have hdata : ∀ z z' : Sys2 ι β K K', z.2.2 = z'.2.2 → ∀ t ∈ Icc a b, (Φ z t).2.2 = (Φ z' t).2.2 := fun z z' hz t ht => by
    obtain ⟨y, -, -, hu⟩ := C69_global_rnn_sizes hf hg w θ' hab z
    have h1 := hu (Φ z) (hs z).1 (hs z).2 t ht
    have h2 := hu (fun t => ((Φ z t).1, (Φ z t).2.1, (Φ z' t).2.2)) (fun t ht => by
      have d1 := (hs z).1 t ht
      have d2 := (hs z').1 t ht
      exact (hasFDerivAt_fst.comp_hasDerivWithinAt t d1).prodMk ((hasFDerivAt_fst.comp_hasDerivWithinAt t (hasFDerivAt_snd.comp_hasDerivWithinAt t d1)).prodMk
        (hasFDerivAt_snd.comp_hasDerivWithinAt t (hasFDerivAt_snd.comp_hasDerivWithinAt t d2))))
      (by rw [(hs z).2, (hs z').2, ← hz]) t ht
    rw [h1, ← h2]
  have hconst : ∀ c : ℝ, total ℓ (fun i => Φ ((q, p, x) + c • (dq, dp, 0)) (τ i)) = total ℓ fun i => Φ (q, p, x) (τ i) := fun c => by
    simp only [total, _root_.sum_apply, ContinuousLinearMap.comp_apply, ContinuousLinearMap.proj_apply]
    refine Finset.sum_congr rfl fun i _ => ?_
    rw [← sub_eq_zero, ← map_sub]
    have := hdata ((q, p, x) + c • (dq, dp, 0)) (q, p, x) (by simp) (τ i) (hmem i)
    have e : Φ ((q, p, x) + c • (dq, dp, 0)) (τ i) - Φ (q, p, x) (τ i) =
        ((Φ ((q, p, x) + c • (dq, dp, 0)) (τ i)).1 - (Φ (q, p, x) (τ i)).1, (Φ ((q, p, x) + c • (dq, dp, 0)) (τ i)).2.1 - (Φ (q, p, x) (τ i)).2.1, 0) := by
      refine Prod.ext rfl (Prod.ext rfl ?_)
      simp only [Prod.snd_sub]
      rw [this, sub_self]
    rw [e]
    exact hℓ i _ _
  have hline := hd.hasLineDerivAt (dq, dp, 0)
  unfold HasLineDerivAt at hline
  simp only [hconst] at hline
  exact (hline.unique (hasDerivAt_const 0 _)).symm ▸ rfl

end Verif.Adjoint
