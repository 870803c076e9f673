import Verif.Converge.Bounded
import Verif.Converge.Props

/-!
# C69: the shooting equations have exactly one solution for every initial value and every time
-/

namespace Verif.Converge
open Set Verif Verif.Shooting Verif.Evolution Verif.Models Verif.Tensor Verif.Assembly Verif.Flow Verif.Whole

variable {ι β K K' P : Type} [Fintype ι] [Fintype β] [Fintype K] [Fintype K'] [Fintype P]

/-- What C69 asks of a model class: linear in its parameters, twice continuously differentiable in the state, and growing at most linearly with the state. -/
structure Regular (f : Class K P) : Prop where
  linear : ∀ (κ : Type) [Fintype κ], LinearInParams (f κ)
  smooth : ∀ (κ : Type) [Fintype κ], SmoothRhs 2 (f κ)
  growth : ∀ (κ : Type) [Fintype κ], Growth (f κ)

/-- The kinetic energy bounds the parameters. -/
theorem param_bound (w : P → Option ℝ) (hw : ∀ r, 0 < weight w r) (θ : P → ℝ) (r : P) : |θ r| ≤ 1 + ∑ r, 2 * kineticEnergy w θ / weight w r := by
  have h1 : weight w r / 2 * θ r ^ 2 ≤ kineticEnergy w θ := by
    rw [kineticEnergy_eq]
    exact Finset.single_le_sum (f := fun r => weight w r / 2 * θ r ^ 2) (fun r _ => mul_nonneg (half_pos (hw r)).le (sq_nonneg _)) (Finset.mem_univ r)
  have hk : 0 ≤ kineticEnergy w θ := (mul_nonneg (half_pos (hw r)).le (sq_nonneg _)).trans h1
  have h2 : θ r ^ 2 ≤ 2 * kineticEnergy w θ / weight w r := by
    rw [le_div_iff₀ (hw r)]
    linarith
  have h3 : 2 * kineticEnergy w θ / weight w r ≤ ∑ r, 2 * kineticEnergy w θ / weight w r :=
    Finset.single_le_sum (f := fun r => 2 * kineticEnergy w θ / weight w r) (fun r _ => div_nonneg (by linarith) (hw r).le) (Finset.mem_univ r)
  have h4 : |θ r| ≤ 1 + θ r ^ 2 := by
    rw [← sq_abs]
    nlinarith [sq_nonneg (|θ r| - 1 / 2)]
  linarith

theorem smooth_one {f : Class K P} (hf : Regular f) (κ : Type) [Fintype κ] : SmoothRhs (1 + 1) (f κ) := hf.smooth κ

omit [Fintype β] [Fintype K'] in
/-- Random initial values of parameters have no influence (as `C52_randomness`). -/
theorem field2_randomness {f : Class K P} (ha : AffineInParams (f ι)) (g : Class K' P) (w : P → Option ℝ) (ρ ρ' : ℝ → (P → ℝ) × (P → ℝ)) :
    (Evolution.field2 f g (Evolution.autodiff f w ρ) : ℝ → Sys2 ι β K K' → Sys2 ι β K K') = Evolution.field2 f g (Evolution.autodiff f w ρ') := by
  funext t z
  unfold Evolution.field2 Evolution.autodiff
  simp only [C32_independent_of_initialisation ha w (ρ t).1 (ρ' t).1 z.1 z.2.1, costate_independent ha w (ρ t).2 (ρ' t).2 z.1 z.2.1]

omit [Fintype β] [Fintype K'] in
/-- The equations with automatic differentiation, with the derivative of the costate written out. -/
theorem autodiff_field [Nonempty ι] {f : Class K P} (hf : Regular f) (g : Class K' P) (w : P → Option ℝ) (hw : ∀ r, weight w r ≠ 0) (ρ : ℝ → (P → ℝ) × (P → ℝ)) (t : ℝ) (z : Sys2 ι β K K') :
    Evolution.field2 f g (Evolution.autodiff f w ρ) t z =
      (f ι (directParameters (f ι) w 0 z.1 z.2.1) z.1, costGrad (f ι) (directParameters (f ι) w 0 z.1 z.2.1) z.1 z.2.1, g β (directParameters (f ι) w 0 z.1 z.2.1) z.2.2) := by
  rw [field2_randomness (hf.linear ι).affine g w ρ fun _ => (0, 0)]
  refine Prod.ext rfl (Prod.ext ?_ rfl)
  exact (C34_costate_gradient (hf.linear ι).affine w hw _ _ _ (fun θ j => (smooth_one hf ι).differentiable θ j _)
    (gradient_formula (hf.linear ι).affine (smooth_one hf ι).differentiable _ _ _)).2

/-- A solution of the equations of the whole system contains a trajectory of the particles. -/
theorem Solves.trajectory {f : Class K P} {g : Class K' P} {w : P → Option ℝ} {a b : ℝ} {y : ℝ → Sys2 ι β K K'} (hy : Solves (Evolution.field2 f g (Evolution.autodiff f w fun _ => (0, 0))) a b y) :
    Trajectory (f ι) w (fun _ => 0) (fun t => (y t).1) (fun t => (y t).2.1) a b where
  state t ht j := by
    have := hasFDerivAt_fst.comp_hasDerivWithinAt t (hy t ht)
    exact hasDerivWithinAt_pi.1 this j
  costate t ht j := by
    have := hasFDerivAt_fst.comp_hasDerivWithinAt t (hasFDerivAt_snd.comp_hasDerivWithinAt t (hy t ht))
    exact hasDerivWithinAt_pi.1 this j

/-- C69: for a regular class and positive weights the shooting equations have a solution for every initial value and on every interval of time, and only one.  Samples can have other
coordinates than particles (images larger than particles). -/
theorem C69_global_sizes [Nonempty ι] {f : Class K P} (hf : Regular f) {g : Class K' P} (hg : Regular g) (w : P → Option ℝ) (hw : ∀ r, 0 < weight w r) (ρ : ℝ → (P → ℝ) × (P → ℝ)) {a b : ℝ} (hab : a ≤ b) (z : Sys2 ι β K K') :
    ∃ y, Solves (Evolution.field2 f g (Evolution.autodiff f w ρ)) a b y ∧ y a = z ∧
      ∀ y', Solves (Evolution.field2 f g (Evolution.autodiff f w ρ)) a b y' → y' a = z → ∀ t ∈ Icc a b, y' t = y t := by
  have hw' : ∀ r, weight w r ≠ 0 := fun r => (hw r).ne'
  have hC := contDiff_autodiff (β := β) (n := 1) (hf.linear ι).affine (smooth_one hf ι) (hg.linear β).affine (smooth_one hg β).less w hw' ρ
  obtain ⟨R, hR⟩ := bound_of_params (hf.linear ι).affine (smooth_one hf ι) (hf.growth ι) (hg.linear β).affine (hg.growth β) a b
    (1 + ∑ r, 2 * kineticEnergy w (directParameters (f ι) w 0 z.1 z.2.1) / weight w r) z
  obtain ⟨y, hy, hya⟩ := exists_of_bound hC hab (z := z) (R := R) (by
    intro c hc y hy hya
    refine hR c hc y (fun t => directParameters (f ι) w 0 (y t).1 (y t).2.1) ?_ hya fun t ht => ?_
    · intro t ht r
      have hy0 : Solves (Evolution.field2 f g (Evolution.autodiff f w fun _ => (0, 0))) a c y := by
        rw [← field2_randomness (hf.linear ι).affine g w ρ fun _ => (0, 0)]
        exact hy
      have := C35_norm_penalty_constant (hf.linear ι) w hw' (fun θ q j => (smooth_one hf ι).differentiable θ j q) hy0.trajectory ht
      have h2 := param_bound w hw (directParameters (f ι) w 0 (y t).1 (y t).2.1) r
      rw [this, hya] at h2
      exact h2
    · rw [← autodiff_field hf g w hw' ρ t (y t)]
      exact hy t ht)
  exact ⟨y, hy, hya, fun y' hy' h0 t ht => C68_unique hC hy' hy (h0.trans hya.symm) t ht⟩

/-- C69: for a regular class and positive weights the shooting equations have a solution for every initial value and on every interval of time, and only one. -/
theorem C69_global [Nonempty ι] {f : Class K P} (hf : Regular f) (w : P → Option ℝ) (hw : ∀ r, 0 < weight w r) (ρ : ℝ → (P → ℝ) × (P → ℝ)) {a b : ℝ} (hab : a ≤ b) (z : Sys ι β K) :
    ∃ y, Solves (Evolution.field f (Evolution.autodiff f w ρ)) a b y ∧ y a = z ∧
      ∀ y', Solves (Evolution.field f (Evolution.autodiff f w ρ)) a b y' → y' a = z → ∀ t ∈ Icc a b, y' t = y t :=
  C69_global_sizes hf hf w hw ρ hab z

/-- C69 for given parameters (RNN mode: those of the initial time). -/
theorem C69_global_rnn_sizes [Nonempty ι] {f : Class K P} (hf : Regular f) {g : Class K' P} (hg : Regular g) (w : P → Option ℝ) (θ : P → ℝ) {a b : ℝ} (hab : a ≤ b) (z : Sys2 ι β K K') :
    ∃ y, Solves (Evolution.field2 f g (Evolution.given f w fun _ => θ)) a b y ∧ y a = z ∧
      ∀ y', Solves (Evolution.field2 f g (Evolution.given f w fun _ => θ)) a b y' → y' a = z → ∀ t ∈ Icc a b, y' t = y t := by
  have hC := contDiff_given (ι := ι) (β := β) (n := 1) (hf.linear ι).affine (smooth_one hf ι) (hg.linear β).affine (smooth_one hg β).less w
    (contDiff_const (c := θ) : ContDiff ℝ (1 : ℕ) fun _ : ℝ => θ)
  obtain ⟨R, hR⟩ := bound_of_params (hf.linear ι).affine (smooth_one hf ι) (hf.growth ι) (hg.linear β).affine (hg.growth β) a b (∑ r, |θ r|) z
  obtain ⟨y, hy, hya⟩ := exists_of_bound hC hab (z := z) (R := R) (by
    intro c hc y hy hya
    refine hR c hc y (fun _ => θ) (fun t _ r => Finset.single_le_sum (f := fun r => |θ r|) (fun r _ => abs_nonneg _) (Finset.mem_univ r)) hya fun t ht => ?_
    have := hy t ht
    have e : Evolution.field2 f g (Evolution.given f w fun _ => θ) t (y t) = (f ι θ (y t).1, costGrad (f ι) θ (y t).1 (y t).2.1, g β θ (y t).2.2) := by
      refine Prod.ext rfl (Prod.ext ?_ rfl)
      exact C34_fixed_parameters (f ι) w _ _ _ (fun j => (smooth_one hf ι).differentiable _ j _)
        (gradient_formula (hf.linear ι).affine (smooth_one hf ι).differentiable _ _ _)
    rw [e] at this
    exact this)
  exact ⟨y, hy, hya, fun y' hy' h0 t ht => C68_unique hC hy' hy (h0.trans hya.symm) t ht⟩

/-- C69 for given parameters (RNN mode: those of the initial time). -/
theorem C69_global_rnn [Nonempty ι] {f : Class K P} (hf : Regular f) (w : P → Option ℝ) (θ : P → ℝ) {a b : ℝ} (hab : a ≤ b) (z : Sys ι β K) :
    ∃ y, Solves (Evolution.field f (Evolution.given f w fun _ => θ)) a b y ∧ y a = z ∧
      ∀ y', Solves (Evolution.field f (Evolution.given f w fun _ => θ)) a b y' → y' a = z → ∀ t ∈ Icc a b, y' t = y t :=
  C69_global_rnn_sizes hf hf w θ hab z

/-! ## Going back -/

/-- A solution run backwards. -/
theorem Solves.reverse {E : Type} [NormedAddCommGroup E] [NormedSpace ℝ E] {f : ℝ → E → E} {a b : ℝ} {y : ℝ → E} (hy : Solves f a b y) :
    Solves (fun t x => - f (a + b - t) x) a b fun t => y (a + b - t) := by
  intro t ht
  have hm : MapsTo (fun t : ℝ => a + b - t) (Icc a b) (Icc a b) := fun s hs => ⟨by linarith [hs.2], by linarith [hs.1]⟩
  have h1 : HasDerivWithinAt (fun t : ℝ => a + b - t) (-1) (Icc a b) t := by simpa using (hasDerivWithinAt_id t (Icc a b)).const_sub (a + b)
  have := (hy (a + b - t) (hm ht)).scomp t h1 hm
  rw [neg_one_smul] at this
  exact this

/-- C69: a solution is also determined by its value at any later time: different initial values never lead to the same value. -/
theorem C69_backwards {fld : ℝ → Sys2 ι β K K' → Sys2 ι β K K'} (hf : ContDiff ℝ 1 fun z : ℝ × Sys2 ι β K K' => fld z.1 z.2) {a b : ℝ} {y y' : ℝ → Sys2 ι β K K'} (hy : Solves fld a b y)
    (hy' : Solves fld a b y') {t : ℝ} (ht : t ∈ Icc a b) (h : y t = y' t) : ∀ s ∈ Icc a b, y s = y' s := by
  have hr : ContDiff ℝ 1 fun z : ℝ × Sys2 ι β K K' => - fld (a + t - z.1) z.2 :=
    (hf.comp (by fun_prop : ContDiff ℝ 1 fun z : ℝ × Sys2 ι β K K' => (a + t - z.1, z.2))).neg
  have h1 := C68_unique hr (hy.mono le_rfl ht.2).reverse (hy'.mono le_rfl ht.2).reverse (by simpa using h)
  have ha : y a = y' a := by simpa using h1 t ⟨ht.1, le_rfl⟩
  exact fun s hs => C68_unique hf hy hy' ha s hs

omit [Fintype P] in
/-- Taking samples out of a batch, along a solution. -/
theorem Solves.select {β' : Type} [Fintype β'] {f : Class K P} {g : Class K' P} (hg : Rowwise g) {m : Mode ι K P} {a b : ℝ} {y : ℝ → Sys2 ι β K K'} (hy : Solves (Evolution.field2 f g m) a b y) (e : β' → β) :
    Solves (Evolution.field2 f g m) a b fun t => Evolution.select e (y t) := by
  intro t ht
  show HasDerivWithinAt _ (Evolution.field2 f g m t (Evolution.select e (y t))) _ _
  have hr : Evolution.field2 f g m t (Evolution.select e (y t)) = Evolution.select e (Evolution.field2 f g m t (y t)) := by
    simp only [Evolution.field2, Evolution.select, hg β' β e]
  rw [hr]
  have h1 := hasFDerivAt_fst.comp_hasDerivWithinAt t (hy t ht)
  have h2 := hasFDerivAt_snd.comp_hasDerivWithinAt t (hy t ht)
  have h3 := hasFDerivAt_fst.comp_hasDerivWithinAt t h2
  have h4 := hasFDerivAt_snd.comp_hasDerivWithinAt t h2
  exact h1.prodMk (h3.prodMk (hasDerivWithinAt_pi.2 fun k => hasDerivWithinAt_pi.1 h4 (e k.1, k.2)))

/-- C69: the exact network never maps two different samples to the same value: if two samples of a batch agree at some time, they agree at all times. -/
theorem C69_samples [Nonempty ι] {f : Class K P} (hf : Regular f) {g : Class K' P} (hg : Regular g) (hrow : Rowwise g) (w : P → Option ℝ) (hw : ∀ r, weight w r ≠ 0) (ρ : ℝ → (P → ℝ) × (P → ℝ)) {a b : ℝ}
    {y : ℝ → Sys2 ι β K K'} (hy : Solves (Evolution.field2 f g (Evolution.autodiff f w ρ)) a b y) (s s' : β) {t : ℝ} (ht : t ∈ Icc a b)
    (h : ∀ k, (y t).2.2 (s, k) = (y t).2.2 (s', k)) : ∀ τ ∈ Icc a b, ∀ k, (y τ).2.2 (s, k) = (y τ).2.2 (s', k) := by
  have hC := contDiff_autodiff (ι := ι) (β := Unit) (n := 1) (hf.linear ι).affine (smooth_one hf ι) (hg.linear Unit).affine (smooth_one hg Unit).less w hw ρ
  have e : Evolution.select (fun _ : Unit => s) (y t) = Evolution.select (fun _ : Unit => s') (y t) :=
    Prod.ext rfl (Prod.ext rfl (funext fun k => h k.2))
  have := C69_backwards hC (hy.select hrow fun _ : Unit => s) (hy.select hrow fun _ : Unit => s') ht e
  intro τ hτ k
  have h1 := congrArg (fun z : Sys2 ι Unit K K' => z.2.2 ((), k)) (this τ hτ)
  exact h1

/-! ## Forward passes -/

/-- C68 for automatic differentiation, without assuming that a solution exists: for a regular class, positive weights and at least one particle there is exactly one exact solution from the given particles,
costates and data, and the forward passes converge to it.  Samples can have other coordinates than particles. -/
theorem C68_forward_sizes {H D Θ Rb : Type} {L : Lay K} (hL : L.Ok) {L' : Lay K'} (hL' : L'.Ok) {f : Class K P} (hf : Regular f) {g : Class K' P} (hg : Regular g) (wt : P → Option ℝ) (hw : ∀ r, 0 < weight wt r) {n B : Nat} (hn : 0 < n)
    (q p : Fin n × K → ℝ) (x : Fin B × K' → ℝ) {T : Tableau} (hT : T.Consistent) {a b : ℝ} (hab : a ≤ b) :
    ∃ y : ℝ → Sys2 (Fin n) (Fin B) K K', Solves (Evolution.field2 f g (Evolution.autodiff f wt fun _ => (0, 0))) a b y ∧ y a = (q, p, x) ∧
    ∃ C h₀ : ℝ, 0 ≤ C ∧ 0 < h₀ ∧ ∀ h, 0 < h → h ≤ h₀ → ∀ (G : List ℝ → List ℝ)
      (icfg : Θ → Nat → Integrand.Cfg ℝ (Trip ℝ) (Par P (P → ℝ)) (TDicts ℝ) ℝ (P → ℝ) H D) (s0 : Integrand.St ℝ (Par P (P → ℝ)) ℝ H D × (Nat → (P → ℝ) × (P → ℝ)))
      (cfg : Block.Cfg ℝ ℝ Θ Rb),
      IsBlock ((autodiffCls L f wt).withData L' g) (solver T G) icfg s0 cfg → s0.1.useRnn = false → s0.1.external = false →
      ∀ (s : Block.St ℝ ℝ Θ), DimOk L' s.dataDim → ∀ (w : Block.When ℝ) (ts : List ℝ), Block.Is s w → w.times = a :: ts →
      (a :: ts).Pairwise (· < ·) → (∀ τ ∈ a :: ts, τ ≤ b) → Suits h G a ts →
      s.state = some (enc L "" n q) → s.costate = some (enc L "p_" n p) →
      ∀ X : Tensor ℝ, cfg.initialData X = .ok (enc L' "" B x) → ∀ r,
      ∃ o t, (Block.forward cfg r ⟨some X, none, none, none⟩ s).2 = .ok o ∧ o.result = .tensor t ∧ Near (L := L') cfg.outKey (C * h) y t w := by
  have : Nonempty (Fin n) := ⟨⟨0, hn⟩⟩
  obtain ⟨y, hy, hya, _⟩ := C69_global_sizes (β := Fin B) hf hg wt hw (fun _ => (0, 0)) hab (q, p, x)
  refine ⟨y, hy, hya, ?_⟩
  have hC := contDiff_autodiff (ι := Fin n) (β := Fin B) (n := 1) (hf.linear _).affine (smooth_one hf _) (hg.linear _).affine (smooth_one hg _).less wt (fun r => (hw r).ne') fun _ => (0, 0)
  obtain ⟨C, h₀, h1, h2, key⟩ := C68_forward (c := (autodiffCls L f wt).withData L' g) hL hL' (indep_autodiff L (fun n => (hf.linear (Fin n)).affine) wt) (r0 := 0) hC hT hy
  refine ⟨C, h₀, h1, h2, fun h hh hle G icfg s0 cfg hb hu he s hdd w ts hwi hwt hinc hts hg hq hp X hX r => ?_⟩
  exact key h hh hle G icfg s0 cfg hb hu he s hdd w ts hwi hwt hinc hts hg (by rw [hya]; exact hq) (by rw [hya]; exact hp) X (by rw [hya]; exact hX) r

/-- C68 for automatic differentiation, without assuming that a solution exists: for a regular class, positive weights and at least one particle there is exactly one exact solution from the given particles,
costates and data, and the forward passes converge to it; particles and samples with the same coordinates. -/
theorem C68_forward_autodiff {H D Θ Rb : Type} {L : Lay K} (hL : L.Ok) {f : Class K P} (hf : Regular f) (wt : P → Option ℝ) (hw : ∀ r, 0 < weight wt r) {n B : Nat} (hn : 0 < n)
    (q p : Fin n × K → ℝ) (x : Fin B × K → ℝ) {T : Tableau} (hT : T.Consistent) {a b : ℝ} (hab : a ≤ b) :
    ∃ y : ℝ → Sys (Fin n) (Fin B) K, Solves (Evolution.field f (Evolution.autodiff f wt fun _ => (0, 0))) a b y ∧ y a = (q, p, x) ∧
    ∃ C h₀ : ℝ, 0 ≤ C ∧ 0 < h₀ ∧ ∀ h, 0 < h → h ≤ h₀ → ∀ (G : List ℝ → List ℝ)
      (icfg : Θ → Nat → Integrand.Cfg ℝ (Trip ℝ) (Par P (P → ℝ)) (TDicts ℝ) ℝ (P → ℝ) H D) (s0 : Integrand.St ℝ (Par P (P → ℝ)) ℝ H D × (Nat → (P → ℝ) × (P → ℝ)))
      (cfg : Block.Cfg ℝ ℝ Θ Rb),
      IsBlock (autodiffCls L f wt) (solver T G) icfg s0 cfg → s0.1.useRnn = false → s0.1.external = false →
      ∀ (s : Block.St ℝ ℝ Θ), DimOk L s.dataDim → ∀ (w : Block.When ℝ) (ts : List ℝ), Block.Is s w → w.times = a :: ts →
      (a :: ts).Pairwise (· < ·) → (∀ τ ∈ a :: ts, τ ≤ b) → Suits h G a ts →
      s.state = some (enc L "" n q) → s.costate = some (enc L "p_" n p) →
      ∀ X : Tensor ℝ, cfg.initialData X = .ok (enc L "" B x) → ∀ r,
      ∃ o t, (Block.forward cfg r ⟨some X, none, none, none⟩ s).2 = .ok o ∧ o.result = .tensor t ∧ Near (L := L) cfg.outKey (C * h) y t w :=
  C68_forward_sizes hL hL hf hf wt hw hn q p x hT hab

end Verif.Converge
