import Verif.Backprop.Loss
import Verif.Converge.Props

/-!
# C85: gradients through a fixed-grid solver

Without `use_adjoint_integration` the library differentiates through the steps of the solver (`generic_integrator.py:69, 100-109`).
-/

namespace Verif.Backprop
open Set Metric Filter Topology Verif Verif.Flow Verif.Converge Verif.Adjoint Verif.Shooting Verif.Evolution Verif.Whole Verif.Tensor Verif.Assembly Verif.Models

/-! ## Families of solutions -/

section
variable {X E : Type} [NormedAddCommGroup X] [NormedSpace ℝ X] [NormedAddCommGroup E] [NormedSpace ℝ E] [FiniteDimensional ℝ X] [FiniteDimensional ℝ E]

omit [FiniteDimensional ℝ E] in
/-- The derivatives with respect to the single values. -/
theorem total_single {n : ℕ} (A : (Fin (n + 1) → E) →L[ℝ] ℝ) : Adjoint.total (fun i => A.comp (ContinuousLinearMap.single ℝ (fun _ => E) i)) = A := by
  ext v
  simp only [Adjoint.total, _root_.sum_apply, ContinuousLinearMap.comp_apply, ContinuousLinearMap.proj_apply, ContinuousLinearMap.single_apply]
  rw [← map_sum, Finset.univ_sum_single]

/-- The derivative of the loss of the results is near the derivative of the loss of the exact solutions. -/
theorem family_rate {f : ℝ → E → E} (hf : ContDiff ℝ 2 fun z : ℝ × E => f z.1 z.2) {T : Tableau} (hT : T.Consistent) {a b : ℝ} {Φ : E → ℝ → E} (hΦ : ∀ z, Solves f a b (Φ z) ∧ Φ z a = z) {x₀ : X} {u : X → E}
    (hu : DifferentiableAt ℝ u x₀) {n : ℕ} {τ : Fin (n + 1) → ℝ} (hτ : StrictMono τ) (h0 : τ 0 = a) (hb : τ (Fin.last n) ≤ b) {L : (Fin (n + 1) → E) → ℝ} (hL : ContDiff ℝ 2 L) :
    ∃ D : X →L[ℝ] ℝ, HasFDerivAt (fun x => L fun i => Φ (u x) (τ i)) D x₀ ∧ ∃ C h₀ : ℝ, 0 ≤ C ∧ 0 < h₀ ∧ ∀ h, 0 < h → h ≤ h₀ → ∀ grid : List ℝ, Fits h τ grid →
      ∃ N : X → Fin (n + 1) → E, (∀ x, u x :: outputs (increment T f) a (u x) grid (List.ofFn τ).tail = List.ofFn (N x)) ∧
        ∃ D' : X →L[ℝ] ℝ, HasFDerivAt (fun x => L (N x)) D' x₀ ∧ ‖D' - D‖ ≤ C * h := by
  have hf1 := hf.of_le (m := 1) (by norm_num)
  obtain ⟨hy, hya⟩ := hΦ (u x₀)
  have hℓ := total_single (fderiv ℝ L fun i => Φ (u x₀) (τ i))
  obtain ⟨g, hg⟩ := C84_backward_exists hf1 hy hτ.monotone h0.ge hb fun i => (fderiv ℝ L fun i => Φ (u x₀) (τ i)).comp (ContinuousLinearMap.single ℝ (fun _ => E) i)
  have hd := C84_adjoint hf1 (Eventually.of_forall hΦ) hτ.monotone h0 hb (hℓ.symm ▸ (hL.differentiable (by norm_num) _).hasFDerivAt) hg
  exact ⟨g.comp (fderiv ℝ u x₀), hd.comp x₀ hu.hasFDerivAt, loss_rate hf hT hy hya.symm hu.hasFDerivAt hτ h0 hb hL hℓ.symm hg⟩

end

/-! ## Kept parameters as part of the system -/

section
variable {E Q : Type} [NormedAddCommGroup E] [NormedSpace ℝ E] [NormedAddCommGroup Q] [NormedSpace ℝ Q]

/-- A system whose parameters do not change. -/
def kept (f : Q → ℝ → E → E) (t : ℝ) (p : E × Q) : E × Q := (f p.2 t p.1, 0)

theorem comb_kept (c : List ℝ) (ks : List E) : Evolution.comb c (ks.map fun k => ((k, 0) : E × Q)) = (Evolution.comb c ks, 0) := by
  unfold Evolution.comb
  induction c generalizing ks with
  | nil => rfl
  | cons a c ih =>
    cases ks with
    | nil => rfl
    | cons k ks => simp [ih]

theorem slopes_kept (f : Q → ℝ → E → E) (h t : ℝ) (z : E) (θ : Q) (ss : List (ℝ × List ℝ)) (ks : List E) :
    slopes (kept f) h t (z, θ) ss (ks.map fun k => (k, 0)) = (slopes (f θ) h t z ss ks).map fun k => (k, 0) := by
  induction ss generalizing ks with
  | nil => rfl
  | cons s ss ih =>
    rw [slopes, slopes, ← ih, List.map_append, comb_kept]
    simp [kept]

theorem increment_kept (f : Q → ℝ → E → E) (T : Tableau) (h t : ℝ) (z : E) (θ : Q) : increment T (kept f) h t (z, θ) = (increment T (f θ) h t z, 0) := by
  have := slopes_kept f h t z θ T.stages []
  unfold increment
  rw [List.map_nil] at this
  rw [this, comb_kept]

theorem between_kept (t t' : ℝ) (y y' : E) (θ : Q) (τ : ℝ) : between t t' (y, θ) (y', θ) τ = (between t t' y y' τ, θ) := by
  unfold between
  split_ifs <;> simp

theorem outputs_kept (f : Q → ℝ → E → E) (T : Tableau) (g : List ℝ) (t : ℝ) (z : E) (θ : Q) (req : List ℝ) :
    outputs (increment T (kept f)) t (z, θ) g req = (outputs (increment T (f θ)) t z g req).map fun y => (y, θ) := by
  induction g generalizing t z req with
  | nil => rfl
  | cons t' g ih =>
    have e : ((z, θ) : E × Q) + (t' - t) • increment T (kept f) (t' - t) t (z, θ) = (z + (t' - t) • increment T (f θ) (t' - t) t z, θ) := by
      rw [increment_kept]
      simp
    rw [outputs, outputs, e, ih, List.map_append, List.map_map]
    congr 1
    refine List.map_congr_left fun τ _ => ?_
    exact between_kept t t' _ _ θ τ

end

variable {ι β K K' P R H D Θ Rb : Type} [Fintype ι] [Fintype β] [Fintype K] [Fintype K'] [Fintype P]

/-- The equations with kept parameters are as smooth in state and parameters as the class (one derivative less for the costate). -/
theorem contDiff_kept [Nonempty ι] {n : ℕ} {f : Class K P} (ha : AffineInParams (f ι)) (hs : SmoothRhs (n + 1) (f ι)) {g : Class K' P} (hab : AffineInParams (g β)) (hsb : SmoothRhs n (g β)) (w : P → Option ℝ) :
    ContDiff ℝ n fun z : ℝ × (Sys2 ι β K K' × (P → ℝ)) => kept (fun θ => field2 f g (given f w fun _ => θ)) z.1 z.2 := by
  have hq : ContDiff ℝ n fun z : ℝ × (Sys2 ι β K K' × (P → ℝ)) => z.2.1.1 := by fun_prop
  have hp : ContDiff ℝ n fun z : ℝ × (Sys2 ι β K K' × (P → ℝ)) => z.2.1.2.1 := by fun_prop
  have hx : ContDiff ℝ n fun z : ℝ × (Sys2 ι β K K' × (P → ℝ)) => z.2.1.2.2 := by fun_prop
  have hθ : ContDiff ℝ n fun z : ℝ × (Sys2 ι β K K' × (P → ℝ)) => z.2.2 := by fun_prop
  refine ((hs.less.comp ha hθ hq).prodMk (ContDiff.prodMk ?_ (hsb.comp hab hθ hx))).prodMk contDiff_const
  have : (fun z : ℝ × (Sys2 ι β K K' × (P → ℝ)) => costateRhsFixed (f ι) w z.2.2 z.2.1.1 z.2.1.2.1) = fun z => fun k => - ∑ j, z.2.1.2.1 j *
      (autograd (fun q' => f ι 0 q' j) z.2.1.1 k + ∑ r, autograd (fun q' => Shooting.coeff (f ι) q' j r) z.2.1.1 k * z.2.2 r) := by
    funext z
    exact C34_fixed_parameters (f ι) w _ _ _ (fun j => hs.differentiable _ j _) (gradient_formula ha hs.differentiable _ _ _)
  exact this ▸ contDiff_gradient hs hθ hq hp

/-! ## Solvers -/

/-- The run of a solver on the times `τ`. -/
theorem run_times (T : Tableau) {G : List ℝ → List ℝ} {n : ℕ} {τ : Fin (n + 1) → ℝ} (hτ : StrictMono τ) {h : ℝ} (hG : Suits h G (τ 0) (List.ofFn τ).tail) :
    ∃ g, Fits h τ g ∧ ∀ (fld : ℝ → Sys2 ι β K K' → Sys2 ι β K K') z, runSys fld (solver T G (List.ofFn τ)) [z] = .ok (z :: outputs (increment T fld) (τ 0) z g (List.ofFn τ).tail) := by
  obtain ⟨g, h1, h2, h3⟩ := hG
  have hτs : List.ofFn τ = τ 0 :: (List.ofFn τ).tail := by rw [List.ofFn_succ, List.tail_cons]
  refine ⟨g, ⟨?_, h3⟩, fun fld z => ?_⟩
  · rw [h2, ← hτs, List.getLast?_eq_getElem?]
    simp [Fin.last, -List.ofFn_succ]
  · have hi : increasing (τ 0 :: (List.ofFn τ).tail) = true := by
      rw [increasing_iff, ← hτs, List.pairwise_ofFn]
      exact fun i j hij => hτ hij
    rw [hτs]
    exact run_solver fld T G _ _ g z hi h1 h2

/-- C85: equations that are twice continuously differentiable, a consistent method, a solution `y`, increasing times, a loss `L` of the values at these times with two continuous derivatives, and the result
`g` of the backward pass along the exact solution.  For all grids with steps of at most `h` the solver has results `N z` for all initial values `z`, the loss of the results is differentiable, and its
derivative is at most a constant times `h` away from `g`. -/
theorem C85_rate {fld : ℝ → Sys2 ι β K K' → Sys2 ι β K K'} (hf : ContDiff ℝ 2 fun z : ℝ × Sys2 ι β K K' => fld z.1 z.2) {T : Tableau} (hT : T.Consistent) {a b : ℝ} {y : ℝ → Sys2 ι β K K'} (hy : Solves fld a b y)
    {n : ℕ} {τ : Fin (n + 1) → ℝ} (hτ : StrictMono τ) (h0 : τ 0 = a) (hb : τ (Fin.last n) ≤ b) {L : (Fin (n + 1) → Sys2 ι β K K') → ℝ} (hL : ContDiff ℝ 2 L) {ℓ : Fin (n + 1) → Sys2 ι β K K' →L[ℝ] ℝ}
    (hℓ : HasFDerivAt L (Adjoint.total ℓ) fun i => y (τ i)) {g : Sys2 ι β K K' →L[ℝ] ℝ} (hg : Backward fld y (List.ofFn fun i => (τ i, ℓ i)) g) :
    ∃ C h₀ : ℝ, 0 ≤ C ∧ 0 < h₀ ∧ ∀ h, 0 < h → h ≤ h₀ → ∀ G : List ℝ → List ℝ, Suits h G a (List.ofFn τ).tail →
      ∃ N : Sys2 ι β K K' → Fin (n + 1) → Sys2 ι β K K', (∀ z, runSys fld (solver T G (List.ofFn τ)) [z] = .ok (List.ofFn (N z))) ∧
        ∃ g', HasFDerivAt (fun z => L (N z)) g' (y a) ∧ ‖g' - g‖ ≤ C * h := by
  subst h0
  obtain ⟨C, h₀, hC, hp, key⟩ := loss_rate hf hT hy (u := id) rfl (hasFDerivAt_id (y (τ 0))) hτ rfl hb hL hℓ.fderiv hg
  refine ⟨C, h₀, hC, hp, fun h hh hle G hG => ?_⟩
  obtain ⟨grid, hfit, hrun⟩ := run_times (ι := ι) (β := β) (K := K) (K' := K') T hτ hG
  obtain ⟨N, h1, h2⟩ := key h hh hle grid hfit
  exact ⟨N, fun z => by rw [hrun fld z]; exact congrArg _ (h1 z), h2⟩

/-- C85: losses with one continuous derivative. -/
theorem C85_limit {fld : ℝ → Sys2 ι β K K' → Sys2 ι β K K'} (hf : ContDiff ℝ 2 fun z : ℝ × Sys2 ι β K K' => fld z.1 z.2) {T : Tableau} (hT : T.Consistent) {a b : ℝ} {y : ℝ → Sys2 ι β K K'} (hy : Solves fld a b y)
    {n : ℕ} {τ : Fin (n + 1) → ℝ} (hτ : StrictMono τ) (h0 : τ 0 = a) (hb : τ (Fin.last n) ≤ b) {L : (Fin (n + 1) → Sys2 ι β K K') → ℝ} (hL : ContDiff ℝ 1 L) {ℓ : Fin (n + 1) → Sys2 ι β K K' →L[ℝ] ℝ}
    (hℓ : HasFDerivAt L (Adjoint.total ℓ) fun i => y (τ i)) {g : Sys2 ι β K K' →L[ℝ] ℝ} (hg : Backward fld y (List.ofFn fun i => (τ i, ℓ i)) g) {ε : ℝ} (hε : 0 < ε) :
    ∃ h₀ : ℝ, 0 < h₀ ∧ ∀ h, 0 < h → h ≤ h₀ → ∀ G : List ℝ → List ℝ, Suits h G a (List.ofFn τ).tail →
      ∃ N : Sys2 ι β K K' → Fin (n + 1) → Sys2 ι β K K', (∀ z, runSys fld (solver T G (List.ofFn τ)) [z] = .ok (List.ofFn (N z))) ∧
        ∃ g', HasFDerivAt (fun z => L (N z)) g' (y a) ∧ ‖g' - g‖ ≤ ε := by
  subst h0
  obtain ⟨h₀, hp, key⟩ := loss_limit hf hT hy (u := id) rfl (hasFDerivAt_id (y (τ 0))) hτ rfl hb hL hℓ.fderiv hg hε
  refine ⟨h₀, hp, fun h hh hle G hG => ?_⟩
  obtain ⟨grid, hfit, hrun⟩ := run_times (ι := ι) (β := β) (K := K) (K' := K') T hτ hG
  obtain ⟨N, h1, h2⟩ := key h hh hle grid hfit
  exact ⟨N, fun z => by rw [hrun fld z]; exact congrArg _ (h1 z), h2⟩

/-- The initial values and the kept parameters depend differentiably on everything a forward pass depends on. -/
theorem differentiable_held {m : Source} (hm : m ≠ .particles) {f : Class K P} (hf : Regular f) (w : P → Option ℝ) (ρ0 : P → ℝ) (t : ℝ) :
    Differentiable ℝ fun l : Inputs ι β K K' P 1 => (l.1, held m f w ρ0 (fun _ => 0) l t) := by
  refine Differentiable.prodMk (by fun_prop) ?_
  cases m with
  | particles => exact absurd rfl hm
  | firstParticles =>
    have : ContDiff ℝ 1 fun l : Inputs ι β K K' P 1 => directParameters (f ι) w ρ0 l.1.1 l.1.2.1 :=
      contDiff_directParameters (n := 1) (hf.linear ι).affine (smooth_one hf ι).less w (fun _ => ρ0) (by fun_prop) (by fun_prop)
    exact this.differentiable (by norm_num)
  | direct =>
    change Differentiable ℝ fun l : Inputs ι β K K' P 1 => l.2 0
    fun_prop

/-- C85: whatever the source of the parameters (particles at every evaluation, particles at the first evaluation, one set that is optimised directly), the loss of the results of the solver is
differentiable with respect to particles, costates, samples and parameters together, and with steps of at most `h` its derivative is at most a constant times `h` away from the derivative of the loss of
the exact solutions. -/
theorem C85_sources [Nonempty ι] (m : Source) {f : Class K P} (hf : Regular f) (hf3 : SmoothRhs 3 (f ι)) {g : Class K' P} (hg : Regular g) (w : P → Option ℝ) (hw : ∀ r, 0 < weight w r)
    (ρ : ℝ → (P → ℝ) × (P → ℝ)) {T : Tableau} (hT : T.Consistent) {a b : ℝ} {Y : Inputs ι β K K' P 1 → ℝ → Sys2 ι β K K'} (hY : Forward m f g w ρ (fun _ => 0) a b Y) (l : Inputs ι β K K' P 1) {n : ℕ}
    {τ : Fin (n + 1) → ℝ} (hτ : StrictMono τ) (h0 : τ 0 = a) (hb : τ (Fin.last n) ≤ b) {L : (Fin (n + 1) → Sys2 ι β K K') → ℝ} (hL : ContDiff ℝ 2 L) :
    ∃ D : Inputs ι β K K' P 1 →L[ℝ] ℝ, HasFDerivAt (fun l => L fun i => Y l (τ i)) D l ∧ ∃ C h₀ : ℝ, 0 ≤ C ∧ 0 < h₀ ∧ ∀ h, 0 < h → h ≤ h₀ → ∀ G : List ℝ → List ℝ, Suits h G a (List.ofFn τ).tail →
      ∃ N : Inputs ι β K K' P 1 → Fin (n + 1) → Sys2 ι β K K',
        (∀ l, runSys (func m f g w ρ (held m f w (ρ a).1 (fun _ => 0) l)) (solver T G (List.ofFn τ)) [l.1] = .ok (List.ofFn (N l))) ∧
        ∃ D' : Inputs ι β K K' P 1 →L[ℝ] ℝ, HasFDerivAt (fun l => L (N l)) D' l ∧ ‖D' - D‖ ≤ C * h := by
  subst h0
  have hab : τ 0 ≤ b := (hτ.monotone (Fin.zero_le _)).trans hb
  have hmem : ∀ i, τ i ∈ Icc (τ 0) b := fun i => ⟨hτ.monotone (Fin.zero_le i), (hτ.monotone (Fin.le_last i)).trans hb⟩
  by_cases hm : m = .particles
  · subst hm
    have hC := contDiff_autodiff (ι := ι) (β := β) (n := 2) (hf.linear ι).affine hf3 (hg.linear β).affine (hg.smooth β) w (fun r => (hw r).ne') ρ
    obtain ⟨D, hD, C, h₀, hC0, hp, key⟩ := family_rate hC hT (Φ := fun z => Y (z, l.2)) (fun z => hY (z, l.2)) (x₀ := l) (u := fun l => l.1) (by fun_prop) hτ rfl hb hL
    refine ⟨D, ?_, C, h₀, hC0, hp, fun h hh hle G hG => ?_⟩
    · refine hD.congr_of_eventuallyEq (Eventually.of_forall fun l' => ?_)
      change L _ = L _
      congr 1
      funext i
      obtain ⟨y, -, -, hu⟩ := C69_global_sizes hf hg w hw ρ hab l'.1
      rw [hu (Y l') (hY l').1 (hY l').2 _ (hmem i), hu (Y (l'.1, l.2)) (hY (l'.1, l.2)).1 (hY (l'.1, l.2)).2 _ (hmem i)]
    · obtain ⟨grid, hfit, hrun⟩ := run_times (ι := ι) (β := β) (K := K) (K' := K') T hτ hG
      obtain ⟨N, h1, h2⟩ := key h hh hle grid hfit
      exact ⟨N, fun l' => by rw [hrun]; exact congrArg _ (h1 l'), h2⟩
  · have hheld : ∀ (l' : Inputs ι β K K' P 1) t, held m f w (ρ (τ 0)).1 (fun _ => 0) l' t = held m f w (ρ (τ 0)).1 (fun _ => 0) l' 0 := fun l' t => by cases m <;> rfl
    have hfunc : ∀ l' : Inputs ι β K K' P 1, func m f g w ρ (held m f w (ρ (τ 0)).1 (fun _ => 0) l') = (field2 f g (given f w fun _ => held m f w (ρ (τ 0)).1 (fun _ => 0) l' 0) : ℝ → Sys2 ι β K K' → _) := fun l' => by
      have e : held m f w (ρ (τ 0)).1 (fun _ => 0) l' = fun _ => held m f w (ρ (τ 0)).1 (fun _ => 0) l' 0 := funext (hheld l')
      cases m with
      | particles => exact absurd rfl hm
      | firstParticles => rfl
      | direct => rfl
    have hC := contDiff_kept (ι := ι) (β := β) (n := 2) (hf.linear ι).affine hf3 (hg.linear β).affine (hg.smooth β) w
    choose Ψ hΨ1 hΨ2 hΨ3 using fun (θ : P → ℝ) => C69_global_rnn_sizes (ι := ι) (β := β) hf hg w θ hab
    obtain ⟨D, hD, C, h₀, hC0, hp, key⟩ := family_rate hC hT (Φ := fun p t => (Ψ p.2 p.1 t, p.2)) (fun p => ⟨fun t ht => ((hΨ1 p.2 p.1) t ht).prodMk (hasDerivWithinAt_const _ _ _), Prod.ext (hΨ2 p.2 p.1) rfl⟩)
      (x₀ := l) (u := fun l => (l.1, held m f w (ρ (τ 0)).1 (fun _ => 0) l 0)) (differentiable_held hm hf w _ 0 l) hτ rfl hb
      (L := fun v => L fun i => (v i).1) (hL.comp (by fun_prop))
    refine ⟨D, ?_, C, h₀, hC0, hp, fun h hh hle G hG => ?_⟩
    · refine hD.congr_of_eventuallyEq (Eventually.of_forall fun l' => ?_)
      change L _ = L _
      congr 1
      funext i
      have := hY l'
      rw [hfunc l'] at this
      exact hΨ3 _ _ (Y l') this.1 this.2 _ (hmem i)
    · obtain ⟨grid, hfit, hrun⟩ := run_times (ι := ι) (β := β) (K := K) (K' := K') T hτ hG
      obtain ⟨N, h1, h2⟩ := key h hh hle grid hfit
      refine ⟨fun l' i => (N l' i).1, fun l' => ?_, h2⟩
      have h3 := h1 l'
      rw [outputs_kept] at h3
      rw [hfunc l', hrun]
      congr 1
      have h4 := congrArg (List.map Prod.fst) h3
      rw [List.map_ofFn, List.map_cons, List.map_map] at h4
      have e : ∀ (l : List (Sys2 ι β K K')) (θ : P → ℝ), List.map (Prod.fst ∘ fun y => (y, θ)) l = l := fun l θ => List.map_id _
      rw [e] at h4
      exact h4

/-- C85: for parameters from the particles, the derivative through the solver and what the adjoint method returns differ by at most a constant times the step size. -/
theorem C85_adjoint [Nonempty ι] {f : Class K P} (hf : Regular f) (hf3 : SmoothRhs 3 (f ι)) {g : Class K' P} (hg : Regular g) (w : P → Option ℝ) (hw : ∀ r, 0 < weight w r)
    (ρ : ℝ → (P → ℝ) × (P → ℝ)) {T : Tableau} (hT : T.Consistent) {a b : ℝ} {Y : Inputs ι β K K' P 1 → ℝ → Sys2 ι β K K'} (hY : Forward .particles f g w ρ (fun _ => 0) a b Y) (l : Inputs ι β K K' P 1) {n : ℕ}
    {τ : Fin (n + 1) → ℝ} (hτ : StrictMono τ) (h0 : τ 0 = a) (hb : τ (Fin.last n) ≤ b) {L : (Fin (n + 1) → Sys2 ι β K K') → ℝ} (hL : ContDiff ℝ 2 L) {ℓ : Fin (n + 1) → Sys2 ι β K K' →L[ℝ] ℝ}
    (hℓ : HasFDerivAt L (Adjoint.total ℓ) fun i => Y l (τ i)) {A : Sys2 ι β K K' →L[ℝ] ℝ}
    (hA : Backward (func .particles f g w ρ (held .particles f w (ρ a).1 (fun _ => (0 : Fin 1)) l)) (Y l) (List.ofFn fun i => (τ i, ℓ i)) A) :
    ∃ C h₀ : ℝ, 0 ≤ C ∧ 0 < h₀ ∧ ∀ h, 0 < h → h ≤ h₀ → ∀ G : List ℝ → List ℝ, Suits h G a (List.ofFn τ).tail →
      ∃ N : Inputs ι β K K' P 1 → Fin (n + 1) → Sys2 ι β K K',
        (∀ l, runSys (func .particles f g w ρ (held .particles f w (ρ a).1 (fun _ => (0 : Fin 1)) l)) (solver T G (List.ofFn τ)) [l.1] = .ok (List.ofFn (N l))) ∧
        ∃ D' : Inputs ι β K K' P 1 →L[ℝ] ℝ, HasFDerivAt (fun l => L (N l)) D' l ∧ ‖D' - returned A‖ ≤ C * h := by
  obtain ⟨D, hD, key⟩ := C85_sources .particles hf hf3 hg w hw ρ hT hY l hτ h0 hb hL
  have := hD.unique (C84_particles hf hg w hw ρ (fun _ => 0) hY l hτ.monotone h0 hb hℓ hA)
  rw [this] at key
  exact key

omit [Fintype P] in
/-- C85 for forward passes of blocks (without RNN mode): the result is that of the values `N z` at the requested times, `z` the particles, costates and data the pass starts from, and the derivative of every
loss of these values is at most a constant times the step size away from the result of the backward pass along the exact solution. -/
theorem C85_forward {c : Cls K K' P R} (hLay : c.lay.Ok) (hLay' : c.dataLay.Ok) (hi : Indep c) {n B : Nat} {r0 : R}
    (hf : ContDiff ℝ 2 fun z : ℝ × Sys2 (Fin n) (Fin B) K K' => Evolution.field2 c.rhs c.dataRhs (modeOf c n r0) z.1 z.2) {T : Tableau} (hT : T.Consistent) {a b : ℝ}
    {y : ℝ → Sys2 (Fin n) (Fin B) K K'} (hy : Solves (Evolution.field2 c.rhs c.dataRhs (modeOf c n r0)) a b y) {k : ℕ} {τ : Fin (k + 1) → ℝ} (hτ : StrictMono τ) (h0 : τ 0 = a) (hb : τ (Fin.last k) ≤ b)
    {L : (Fin (k + 1) → Sys2 (Fin n) (Fin B) K K') → ℝ} (hL : ContDiff ℝ 2 L) {ℓ : Fin (k + 1) → Sys2 (Fin n) (Fin B) K K' →L[ℝ] ℝ} (hℓ : HasFDerivAt L (Adjoint.total ℓ) fun i => y (τ i))
    {g : Sys2 (Fin n) (Fin B) K K' →L[ℝ] ℝ} (hg : Backward (Evolution.field2 c.rhs c.dataRhs (modeOf c n r0)) y (List.ofFn fun i => (τ i, ℓ i)) g) :
    ∃ C h₀ : ℝ, 0 ≤ C ∧ 0 < h₀ ∧ ∀ h, 0 < h → h ≤ h₀ → ∀ G : List ℝ → List ℝ, Suits h G a (List.ofFn τ).tail →
      ∃ N : Sys2 (Fin n) (Fin B) K K' → Fin (k + 1) → Sys2 (Fin n) (Fin B) K K',
        (∀ (icfg : Θ → Nat → Integrand.Cfg ℝ (Trip ℝ) (Par P R) (TDicts ℝ) ℝ R H D) (s0 : Integrand.St ℝ (Par P R) ℝ H D × (Nat → R × R)) (cfg : Block.Cfg ℝ ℝ Θ Rb),
          IsBlock c (solver T G) icfg s0 cfg → s0.1.useRnn = false → s0.1.external = false →
          ∀ (s : Block.St ℝ ℝ Θ), DimOk c.dataLay s.dataDim → ∀ w : Block.When ℝ, Block.Is s w → w.times = List.ofFn τ → ∀ z : Sys2 (Fin n) (Fin B) K K',
          s.state = some (enc c.lay "" n z.1) → s.costate = some (enc c.lay "p_" n z.2.1) → ∀ X : Tensor ℝ, cfg.initialData X = .ok (enc c.dataLay "" B z.2.2) →
          ∀ sh, (cfg.outKey, sh) ∈ c.dataLay.names → ∀ r,
          Block.forward cfg r ⟨some X, none, none, none⟩ s = report c.lay c.dataLay cfg.name cfg.outKey sh s w (.ok (List.ofFn (N z)))) ∧
        ∃ g', HasFDerivAt (fun z => L (N z)) g' (y a) ∧ ‖g' - g‖ ≤ C * h := by
  obtain ⟨C, h₀, hC, hp, key⟩ := C85_rate hf hT hy hτ h0 hb hL hℓ hg
  refine ⟨C, h₀, hC, hp, fun h hh hle G hG => ?_⟩
  obtain ⟨N, h1, h2⟩ := key h hh hle G hG
  refine ⟨N, fun icfg s0 cfg hblk hu he s hdd w hw hwt z hq hpp X hX sh hkey r => ?_, h2⟩
  rw [C67_forward hLay hLay' hi hblk hu he hdd hw hq hpp hX hkey r r0, hwt]
  exact congrArg _ (h1 z)

end Verif.Backprop
