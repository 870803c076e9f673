import Verif.Converge.Classes

/-!
# C68: forward passes in RNN mode and with hand-written formulas; conservation of the norm penalty
-/

namespace Verif.Converge
open Set Verif Verif.Shooting Verif.Evolution Verif.Models Verif.Tensor Verif.Assembly Verif.Flow Verif.Whole

variable {ι β K K' P H D Θ Rb : Type} [Fintype ι] [Fintype β] [Fintype K] [Fintype K'] [Fintype P]

/-! ## RNN mode -/

/-- A solver evaluates the right-hand side for the first time at the initial value. -/
theorem firstEval_solver {T : Tableau} (hT : T.Consistent) (G : List ℝ → List ℝ) (ts : List ℝ) (z z' : Sys2 ι β K K') (h : firstEval (solver T G ts) [z] = some z') : z' = z := by
  cases ts with
  | nil => exact absurd h (by simp [solver, firstEval])
  | cons t ts =>
    unfold solver at h
    dsimp only at h
    split at h
    · exact absurd h (by simp [firstEval])
    split at h
    · exact absurd h (by simp [firstEval])
    cases hg : (G (t :: ts)).tail with
    | nil => rw [hg, solverLoop] at h; exact absurd h (by simp [firstEval])
    | cons t' g =>
      rw [hg, solverLoop] at h
      cases hs : T.stages with
      | nil =>
        obtain ⟨h1, h2⟩ := hT
        rw [hs] at h1
        have : T.weights = [] := by simpa using h1
        rw [this] at h2
        exact absurd h2 (by norm_num)
      | cons s ss =>
        rw [hs, stagesProg, firstEval] at h
        rw [← Option.some.inj h]
        have h0 : Holds (fun rs => rs.getD 0 0) [z] z := holds_get [] z
        have := (holds_step h0 (ks := []) (vs := []) .nil (t' - t) s.2).combine
        rw [this]
        simp [comb]

/-- C68 in RNN mode: the parameters are computed once, at the initial particles and costates; the forward passes converge to the solution with these parameters.  Samples can have
other coordinates than particles. -/
theorem C68_forward_rnn_sizes {L : Lay K} (hL : L.Ok) {L' : Lay K'} (hL' : L'.Ok) {f : Class K P} (hf : Regular f) {g : Class K' P} (hg : Regular g) (wt : P → Option ℝ) {n B : Nat} (hn : 0 < n)
    (q p : Fin n × K → ℝ) (x : Fin B × K' → ℝ) {T : Tableau} (hT : T.Consistent) {a b : ℝ} (hab : a ≤ b) :
    ∃ y : ℝ → Sys2 (Fin n) (Fin B) K K', Solves (Evolution.field2 f g (Evolution.given f wt fun _ => directParameters (f (Fin n)) wt 0 q p)) a b y ∧ y a = (q, p, x) ∧
    ∃ C h₀ : ℝ, 0 ≤ C ∧ 0 < h₀ ∧ ∀ h, 0 < h → h ≤ h₀ → ∀ (G : List ℝ → List ℝ)
      (icfg : Θ → Nat → Integrand.Cfg ℝ (Trip ℝ) (Par P (P → ℝ)) (TDicts ℝ) ℝ (P → ℝ) H D) (s0 : Integrand.St ℝ (Par P (P → ℝ)) ℝ H D × (Nat → (P → ℝ) × (P → ℝ)))
      (cfg : Block.Cfg ℝ ℝ Θ Rb),
      IsBlock ((rnnCls L f wt).withData L' g) (solver T G) icfg s0 cfg → s0.1.useRnn = true → s0.1.external = false → s0.1.cache = none →
      ∀ (s : Block.St ℝ ℝ Θ), DimOk L' s.dataDim → ∀ (w : Block.When ℝ) (ts : List ℝ), Block.Is s w → w.times = a :: ts →
      (a :: ts).Pairwise (· < ·) → (∀ τ ∈ a :: ts, τ ≤ b) → Suits h G a ts →
      s.state = some (enc L "" n q) → s.costate = some (enc L "p_" n p) →
      ∀ X : Tensor ℝ, cfg.initialData X = .ok (enc L' "" B x) → ∀ r,
      ∃ o t, (Block.forward cfg r ⟨some X, none, none, none⟩ s).2 = .ok o ∧ o.result = .tensor t ∧ Near (L := L') cfg.outKey (C * h) y t w := by
  have : Nonempty (Fin n) := ⟨⟨0, hn⟩⟩
  obtain ⟨y, hy, hya, _⟩ := C69_global_rnn_sizes (β := Fin B) hf hg wt (directParameters (f (Fin n)) wt 0 q p) hab (q, p, x)
  refine ⟨y, hy, hya, ?_⟩
  have hC := contDiff_given (ι := Fin n) (β := Fin B) (n := 1) (hf.linear _).affine (smooth_one hf _) (hg.linear _).affine (smooth_one hg _).less wt
    (contDiff_const (c := directParameters (f (Fin n)) wt 0 q p) : ContDiff ℝ (1 : ℕ) fun _ : ℝ => directParameters (f (Fin n)) wt 0 q p)
  obtain ⟨C, h₀, h1, h2, key⟩ := C68_converge hC hT hy
  refine ⟨C, h₀, h1, h2, fun h hh hle G icfg s0 cfg hb hu he hn s hdd w ts hw hwt hinc hts hgr hq hp X hX r => ?_⟩
  obtain ⟨sh, hkey⟩ := hb.key
  obtain ⟨ys, e1, e2⟩ := key h hh hle G ts hinc hts hgr
  rw [C67_forward_rnn (c := (rnnCls L f wt).withData L' g) hL hL' hb hu he hn hdd hw hq hp hX hkey r (directParameters (f (Fin n)) wt 0 q p, (s0.2 0).1) ?_, hwt]
  · rw [hya] at e1
    show ∃ o t, (report L L' cfg.name cfg.outKey sh s w (runSys (Evolution.field2 f g (Evolution.given f wt fun _ => directParameters (f (Fin n)) wt 0 q p))
      (solver T G (a :: ts)) [(q, p, x)])).2 = .ok o ∧ _
    rw [e1]
    exact report_near _ hL' _ hkey s w hwt e2
  · intro z hz
    rw [firstEval_solver hT G _ _ z hz]
    exact Prod.ext (C32_independent_of_initialisation (hf.linear _).affine wt 0 (s0.2 0).1 q p) rfl

/-- C68 in RNN mode: the parameters are computed once, at the initial particles and costates; the forward passes converge to the solution with these parameters; particles and samples with the same coordinates. -/
theorem C68_forward_rnn {L : Lay K} (hL : L.Ok) {f : Class K P} (hf : Regular f) (wt : P → Option ℝ) {n B : Nat} (hn : 0 < n)
    (q p : Fin n × K → ℝ) (x : Fin B × K → ℝ) {T : Tableau} (hT : T.Consistent) {a b : ℝ} (hab : a ≤ b) :
    ∃ y : ℝ → Sys (Fin n) (Fin B) K, Solves (Evolution.field f (Evolution.given f wt fun _ => directParameters (f (Fin n)) wt 0 q p)) a b y ∧ y a = (q, p, x) ∧
    ∃ C h₀ : ℝ, 0 ≤ C ∧ 0 < h₀ ∧ ∀ h, 0 < h → h ≤ h₀ → ∀ (G : List ℝ → List ℝ)
      (icfg : Θ → Nat → Integrand.Cfg ℝ (Trip ℝ) (Par P (P → ℝ)) (TDicts ℝ) ℝ (P → ℝ) H D) (s0 : Integrand.St ℝ (Par P (P → ℝ)) ℝ H D × (Nat → (P → ℝ) × (P → ℝ)))
      (cfg : Block.Cfg ℝ ℝ Θ Rb),
      IsBlock (rnnCls L f wt) (solver T G) icfg s0 cfg → s0.1.useRnn = true → s0.1.external = false → s0.1.cache = none →
      ∀ (s : Block.St ℝ ℝ Θ), DimOk L s.dataDim → ∀ (w : Block.When ℝ) (ts : List ℝ), Block.Is s w → w.times = a :: ts →
      (a :: ts).Pairwise (· < ·) → (∀ τ ∈ a :: ts, τ ≤ b) → Suits h G a ts →
      s.state = some (enc L "" n q) → s.costate = some (enc L "p_" n p) →
      ∀ X : Tensor ℝ, cfg.initialData X = .ok (enc L "" B x) → ∀ r,
      ∃ o t, (Block.forward cfg r ⟨some X, none, none, none⟩ s).2 = .ok o ∧ o.result = .tensor t ∧ Near (L := L) cfg.outKey (C * h) y t w :=
  C68_forward_rnn_sizes hL hL hf hf wt hn q p x hT hab

/-! ## Hand-written formulas -/

/-- The hand-written parameters and costate derivatives of a class are those of automatic differentiation (C34), for `n` particles. -/
def Exact (f : Class K P) (w : P → Option ℝ) (n : Nat) (par : (Fin n × K → ℝ) → (Fin n × K → ℝ) → P → ℝ)
    (cost : (P → ℝ) → (Fin n × K → ℝ) → (Fin n × K → ℝ) → Fin n × K → ℝ) : Prop :=
  ∀ q p, directParameters (f (Fin n)) w 0 q p = divideByWeight w (par q p) ∧ costateRhs (f (Fin n)) w 0 q p = cost (divideByWeight w (par q p)) q p

/-- C68: six classes have exact formulas when a particle has one row. -/
theorem C68_exact {E F : Type} [Fintype E] [Fintype F] {nl dnl : ℝ → ℝ} (hd : ∀ x, HasDerivAt nl (dnl x) x) {n : Nat} (hn : 0 < n) :
    (∀ w : Layer E E → Option ℝ, (∀ r, weight w r ≠ 0) → Exact (fun _ => simple nl : Class (Fin 1 × E) _) w n (simpleParams nl) (simpleCostate dnl)) ∧
    (∀ w : UpDownPar E F → Option ℝ, (∀ r, weight w r ≠ 0) → Exact (fun _ => upDown nl : Class (Two (Fin 1) E F) _) w n (upDownParams nl) (upDownCostate dnl)) ∧
    (∀ w : UniversalPar E F → Option ℝ, (∀ r, weight w r ≠ 0) → Exact (fun _ => universal nl : Class (Two (Fin 1) E F) _) w n (universalParams nl) (universalCostate dnl)) ∧
    (∀ w : PeriodicPar E F → Option ℝ, (∀ r, weight w r ≠ 0) → Exact (fun _ => periodic nl : Class (Two (Fin 1) E F) _) w n (periodicParams nl) (periodicCostate dnl)) ∧
    (∀ w : GeneralPar E F → Option ℝ, (∀ r, weight w r ≠ 0) → Exact (fun _ => general nl 0 : Class (Two (Fin 1) E F) _) w n (generalParams nl) (generalCostate dnl)) ∧
    (∀ w : Layer E E ⊕ Layer E E → Option ℝ, (∀ r, weight w r ≠ 0) →
      Exact (fun _ => debugSimple nl : Class (Two (Fin 1) E E) _) w n (debugSimpleParams nl) (debugSimpleCostate dnl)) :=
  have : Nonempty (Fin n) := ⟨⟨0, hn⟩⟩
  ⟨fun _ hw _ p => C34_simple (fun _ _ _ => hd _) hw 0 p, fun _ hw _ p => C34_upDown (fun _ _ _ => hd _) hw 0 p, fun _ hw _ p => C34_universal (fun _ _ _ => hd _) hw 0 p,
    fun _ hw _ p => C34_periodic (fun _ _ _ => hd _) hw 0 p, fun _ hw _ p => C34_general (fun _ _ _ => hd _) (fun _ _ _ => hd _) hw 0 p,
    fun _ hw _ p => C34_debugSimple (fun _ _ _ => hd _) (fun _ _ _ => hd _) hw 0 p⟩

/-- C68 for hand-written formulas: where they are exact, the forward passes converge to the same solution as those with automatic differentiation. -/
theorem C68_forward_analytic {R : Type} {L : Lay K} (hL : L.Ok) {f : Class K P} (hf : Regular f) (wt : P → Option ℝ) (hw : ∀ r, 0 < weight wt r) {n B : Nat} (hn : 0 < n)
    (par : ∀ n, (Fin n × K → ℝ) → (Fin n × K → ℝ) → P → ℝ) (cost : ∀ n, (P → ℝ) → (Fin n × K → ℝ) → (Fin n × K → ℝ) → Fin n × K → ℝ) (hx : Exact f wt n (par n) (cost n))
    (q p : Fin n × K → ℝ) (x : Fin B × K → ℝ) {T : Tableau} (hT : T.Consistent) {a b : ℝ} (hab : a ≤ b) :
    ∃ y : ℝ → Sys (Fin n) (Fin B) K, Solves (Evolution.field f (Evolution.autodiff f wt fun _ => (0, 0))) a b y ∧ y a = (q, p, x) ∧
    ∃ C h₀ : ℝ, 0 ≤ C ∧ 0 < h₀ ∧ ∀ h, 0 < h → h ≤ h₀ → ∀ (G : List ℝ → List ℝ)
      (icfg : Θ → Nat → Integrand.Cfg ℝ (Trip ℝ) (Par P R) (TDicts ℝ) ℝ R H D) (s0 : Integrand.St ℝ (Par P R) ℝ H D × (Nat → R × R))
      (cfg : Block.Cfg ℝ ℝ Θ Rb),
      IsBlock (analyticCls L f par cost wt) (solver T G) icfg s0 cfg → s0.1.useRnn = false → s0.1.external = false →
      ∀ (s : Block.St ℝ ℝ Θ), DimOk L s.dataDim → ∀ (w : Block.When ℝ) (ts : List ℝ), Block.Is s w → w.times = a :: ts →
      (a :: ts).Pairwise (· < ·) → (∀ τ ∈ a :: ts, τ ≤ b) → Suits h G a ts →
      s.state = some (enc L "" n q) → s.costate = some (enc L "p_" n p) →
      ∀ X : Tensor ℝ, cfg.initialData X = .ok (enc L "" B x) → ∀ r,
      ∃ o t, (Block.forward cfg r ⟨some X, none, none, none⟩ s).2 = .ok o ∧ o.result = .tensor t ∧ Near (L := L) cfg.outKey (C * h) y t w := by
  have : Nonempty (Fin n) := ⟨⟨0, hn⟩⟩
  obtain ⟨y, hy, hya, _⟩ := C69_global (β := Fin B) hf wt hw (fun _ => (0, 0)) hab (q, p, x)
  refine ⟨y, hy, hya, ?_⟩
  have hC := contDiff_autodiff (ι := Fin n) (β := Fin B) (n := 1) (hf.linear _).affine (smooth_one hf _) (hf.linear _).affine (smooth_one hf _).less wt (fun r => (hw r).ne') fun _ => (0, 0)
  obtain ⟨C, h₀, h1, h2, key⟩ := C68_converge hC hT hy
  have em : Evolution.analytic (par n) (cost n) wt = Evolution.autodiff f wt fun _ => (0, 0) := by
    unfold Evolution.analytic Evolution.autodiff
    congr 1
    · funext _ q p
      exact (hx q p).1.symm
    · funext _ q p
      exact (hx q p).2.symm
  refine ⟨C, h₀, h1, h2, fun h hh hle G icfg s0 cfg hb hu he s hdd w ts hwi hwt hinc hts hg hq hp X hX r => ?_⟩
  obtain ⟨sh, hkey⟩ := hb.key
  obtain ⟨ys, e1, e2⟩ := key h hh hle G ts hinc hts hg
  rw [C67_forward_analytic hL f par cost wt hb hu he hdd hwi hq hp hX hkey r, hwt, em]
  rw [hya] at e1
  have e1 : runSys (Evolution.field f (Evolution.autodiff f wt fun _ => (0, 0))) (solver T G (a :: ts)) [(q, p, x)] = .ok ys := e1
  rw [e1]
  exact report_near _ hL _ hkey s w hwt e2

/-! ## The norm penalty -/

/-- A differentiable quantity of a numerical solution converges too. -/
theorem observable {fld : ℝ → Sys2 ι β K K' → Sys2 ι β K K'} (hf : ContDiff ℝ 1 fun z : ℝ × Sys2 ι β K K' => fld z.1 z.2) {g : Sys2 ι β K K' → ℝ} (hg : ContDiff ℝ 1 g) {T : Tableau} (hT : T.Consistent)
    {a b : ℝ} {y : ℝ → Sys2 ι β K K'} (hy : Solves fld a b y) : ∃ C h₀ : ℝ, 0 ≤ C ∧ 0 < h₀ ∧ ∀ h, 0 < h → h ≤ h₀ → ∀ (G : List ℝ → List ℝ) (ts : List ℝ),
      (a :: ts).Pairwise (· < ·) → (∀ τ ∈ a :: ts, τ ≤ b) → Suits h G a ts →
      ∃ ys, runSys fld (solver T G (a :: ts)) [y a] = .ok ys ∧ List.Forall₂ (fun Y τ => |g Y - g (y τ)| ≤ C * h) ys (a :: ts) := by
  obtain ⟨C, h₀, hC, hp, key⟩ := C68_converge hf hT hy
  have hcont : ContinuousOn y (Icc a b) := fun t ht => (hy t ht).continuousWithinAt
  obtain ⟨R, hR⟩ := isCompact_Icc.exists_bound_of_continuousOn hcont
  have hcb : IsCompact (Metric.closedBall (0 : Sys2 ι β K K') (R + C * h₀)) := isCompact_closedBall _ _
  obtain ⟨M, hM⟩ := hcb.exists_bound_of_continuousOn (hg.continuous_fderiv one_ne_zero).continuousOn
  refine ⟨|M| * C, h₀, by positivity, hp, fun h hh hle G ts hinc hts hs => ?_⟩
  obtain ⟨ys, e1, e2⟩ := key h hh hle G ts hinc hts hs
  refine ⟨ys, e1, ?_⟩
  have hge : ∀ τ ∈ a :: ts, a ≤ τ := by
    intro τ hτ
    rcases List.mem_cons.1 hτ with rfl | h'
    · exact le_rfl
    · exact ((List.pairwise_cons.1 hinc).1 τ h').le
  have step : ∀ (l : List (Sys2 ι β K K')) (l' : List ℝ), (∀ τ ∈ l', τ ∈ Icc a b) → List.Forall₂ (fun Y τ => ‖Y - y τ‖ ≤ C * h) l l' →
      List.Forall₂ (fun Y τ => |g Y - g (y τ)| ≤ |M| * C * h) l l' := by
    intro l l' hm h2
    induction h2 with
    | nil => exact .nil
    | @cons Y τ l l' h1 _ ih =>
      refine .cons ?_ (ih fun τ hτ => hm τ (List.mem_cons_of_mem _ hτ))
      have hy' := hR τ (hm τ (by simp))
      have hCh : C * h ≤ C * h₀ := mul_le_mul_of_nonneg_left hle hC
      have m1 : y τ ∈ Metric.closedBall (0 : Sys2 ι β K K') (R + C * h₀) := by
        rw [mem_closedBall_zero_iff]
        have := mul_nonneg hC hp.le
        linarith
      have m2 : Y ∈ Metric.closedBall (0 : Sys2 ι β K K') (R + C * h₀) := by
        rw [mem_closedBall_zero_iff]
        have e : Y = y τ + (Y - y τ) := by abel
        rw [e]
        refine (norm_add_le _ _).trans ?_
        linarith
      have := (convex_closedBall (0 : Sys2 ι β K K') (R + C * h₀)).norm_image_sub_le_of_norm_fderiv_le (𝕜 := ℝ) (f := g) (C := |M|)
        (fun x _ => hg.differentiable one_ne_zero x) (fun x hx => (hM x hx).trans (le_abs_self M)) m1 m2
      rw [Real.norm_eq_abs] at this
      refine this.trans ?_
      rw [mul_assoc]
      exact mul_le_mul_of_nonneg_left h1 (abs_nonneg M)
  exact step ys (a :: ts) (fun τ hτ => ⟨hge τ hτ, hts τ hτ⟩) e2

/-- C68: the norm penalty at the particles computed by a forward pass, at all requested times, is the norm penalty of the initial particles up to a constant times the step size. -/
theorem C68_norm_penalty [Nonempty ι] {f : Class K P} (hf : Regular f) (w : P → Option ℝ) (hw : ∀ r, 0 < weight w r) (ρ : ℝ → (P → ℝ) × (P → ℝ)) {T : Tableau} (hT : T.Consistent)
    {a b : ℝ} (hab : a ≤ b) (z : Sys ι β K) : ∃ C h₀ : ℝ, 0 ≤ C ∧ 0 < h₀ ∧ ∀ h, 0 < h → h ≤ h₀ → ∀ (G : List ℝ → List ℝ) (ts : List ℝ),
      (a :: ts).Pairwise (· < ·) → (∀ τ ∈ a :: ts, τ ≤ b) → Suits h G a ts →
      ∃ ys, runSys (Evolution.field f (Evolution.autodiff f w ρ)) (solver T G (a :: ts)) [z] = .ok ys ∧ ys.length = ts.length + 1 ∧ ∀ Y ∈ ys,
        |kineticEnergy w (directParameters (f ι) w 0 Y.1 Y.2.1) - kineticEnergy w (directParameters (f ι) w 0 z.1 z.2.1)| ≤ C * h := by
  have hw' : ∀ r, weight w r ≠ 0 := fun r => (hw r).ne'
  obtain ⟨y, hy, hya, _⟩ := C69_global hf w hw ρ hab z
  have hC := contDiff_autodiff (β := β) (n := 1) (hf.linear ι).affine (smooth_one hf ι) (hf.linear β).affine (smooth_one hf β).less w hw' ρ
  have hθ : ContDiff ℝ 1 fun z : Sys ι β K => directParameters (f ι) w 0 z.1 z.2.1 :=
    contDiff_directParameters (n := 1) (hf.linear ι).affine (smooth_one hf ι).less w (fun _ => 0) (by fun_prop) (by fun_prop)
  have hg : ContDiff ℝ 1 fun z : Sys ι β K => kineticEnergy w (directParameters (f ι) w 0 z.1 z.2.1) := by
    simp only [kineticEnergy_eq]
    exact ContDiff.sum fun r _ => contDiff_const.mul (((contDiff_pi.1 hθ) r).pow 2)
  obtain ⟨C, h₀, h1, h2, key⟩ := observable hC hg hT hy
  refine ⟨C, h₀, h1, h2, fun h hh hle G ts hinc hts hs => ?_⟩
  obtain ⟨ys, e1, e2⟩ := key h hh hle G ts hinc hts hs
  refine ⟨ys, by rw [← hya]; exact e1, by simpa using e2.length_eq, fun Y hY => ?_⟩
  have hy0 : Solves (Evolution.field f (Evolution.autodiff f w fun _ => (0, 0))) a b y := by
    rw [← C52_randomness (hf.linear ι).affine w ρ fun _ => (0, 0)]
    exact hy
  obtain ⟨i, hi, rfl⟩ := List.mem_iff_getElem.1 hY
  have hi' : i < (a :: ts).length := by rw [← e2.length_eq]; exact hi
  have h3 := e2.get hi hi'
  have hτ : (a :: ts)[i] ∈ a :: ts := List.getElem_mem hi'
  have hm : (a :: ts)[i] ∈ Icc a b := by
    refine ⟨?_, hts _ hτ⟩
    rcases List.mem_cons.1 hτ with h' | h'
    · exact h'.ge
    · exact ((List.pairwise_cons.1 hinc).1 _ h').le
  have := C35_norm_penalty_constant (hf.linear ι) w hw' (fun θ q j => (smooth_one hf ι).differentiable θ j q) hy0.trajectory hm
  simp only [List.get_eq_getElem] at h3
  rw [this, hya] at h3
  exact h3

end Verif.Converge
