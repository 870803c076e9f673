import Verif.Order.Props

/-!
# C94: forward passes
-/

namespace Verif.Order
open Set Verif Verif.Tensor Verif.Assembly Verif.Flow Verif.Whole Verif.Evolution Verif.Models Verif.Shooting Verif.Converge Verif.Activation Verif.Conv

variable {ι β K K' P R H D Θ Rb : Type} [Fintype ι] [Fintype β] [Fintype K] [Fintype K'] [Fintype P]

/-! ## Grids -/

/-- C94: which requested times belong to the grid.  The initial and the last one always do (so that a block with an integration time instead of a vector of times has only such times); without a step
size the requested times are the grid; with a step size those that are a whole number of steps after the initial time. -/
theorem C94_on_grid (a : ℝ) (ts : List ℝ) :
    (∀ h G, Suits h G a ts → a ∈ G (a :: ts) ∧ ∀ e ∈ (a :: ts).getLast?, e ∈ G (a :: ts)) ∧ (∀ τ ∈ a :: ts, τ ∈ id (a :: ts)) ∧
    ∀ h, 0 < h → (a :: ts).Pairwise (· < ·) → ∀ i : ℕ, (∃ e ∈ (a :: ts).getLast?, (i : ℝ) * h + a ≤ e) → (i : ℝ) * h + a ∈ stepGrid h (a :: ts) := by
  refine ⟨fun h G ⟨g, h1, h2, _⟩ => ?_, fun τ h => h, fun h hh hi i ⟨e, he, hle⟩ => ?_⟩
  · rw [h1]
    refine ⟨by simp, fun e he => ?_⟩
    rw [← h2] at he
    exact List.mem_of_getLast? he
  · have hlast : (a :: ts).getLast? = some e := he
    by_cases hte : a < e
    · obtain ⟨k, h1, h2, h3⟩ := C68_grid hh a ts e hlast hte
      rw [h1]
      by_cases hik : i ≤ k
      · exact List.mem_append_left _ (List.mem_map.2 ⟨i, List.mem_range.2 (by omega), rfl⟩)
      · refine List.mem_append_right _ (List.mem_singleton.2 (le_antisymm hle ?_))
        have : ((k + 1 : ℕ) : ℝ) ≤ i := by exact_mod_cast (by omega : k + 1 ≤ i)
        have := mul_le_mul_of_nonneg_right this hh.le
        push_cast at this
        linarith
    · have hi0 : (i : ℝ) * h = 0 := by
        have : 0 ≤ (i : ℝ) * h := by positivity
        linarith
      rw [hi0, zero_add]
      obtain ⟨g, h1, _⟩ := stepGrid_suits hh a ts hi
      rw [h1]
      simp

/-! ## Outputs -/

/-- The output tensor of a block is close to the data of the solution `y`: within `C (h ^ p + h ^ 2)`, and within `C h ^ p` if the requested times belong to the grid. -/
def Accurate {L : Lay K'} {n B : Nat} (key : String) (C h : ℝ) (p : ℕ) (y : ℝ → Sys2 (Fin n) (Fin B) K K') (times grid : List ℝ) (t : Tensor ℝ) (w : Block.When ℝ) : Prop :=
  Near (L := L) key (C * (h ^ p + h ^ 2)) y t w ∧ ((∀ τ ∈ times, τ ∈ grid) → Near (L := L) key (C * h ^ p) y t w)

omit [Fintype P] in
theorem report_accurate (L : Lay K) {L' : Lay K'} (hL' : L'.Ok) (nm : String) {key : String} {sh : List Nat} (hkey : (key, sh) ∈ L'.names) {n B : Nat} (s : Block.St ℝ ℝ Θ) (w : Block.When ℝ) {a : ℝ}
    {ts grid : List ℝ} (hw : w.times = a :: ts) {C h : ℝ} {p : ℕ} {y : ℝ → Sys2 (Fin n) (Fin B) K K'} {ys : List (Sys2 (Fin n) (Fin B) K K')}
    (hr : List.Forall₂ (fun Y τ => ‖Y - y τ‖ ≤ C * (h ^ p + h ^ 2) ∧ (τ ∈ grid → ‖Y - y τ‖ ≤ C * h ^ p)) ys (a :: ts)) :
    ∃ o t, (report L L' nm key sh s w (.ok ys)).2 = .ok o ∧ o.result = .tensor t ∧ Accurate (L := L') key C h p y (a :: ts) grid t w := by
  obtain ⟨o, t, h1, h2, h3⟩ := report_near L hL' nm hkey s w hw (hr.imp fun _ _ h => h.1)
  refine ⟨o, t, h1, h2, h3, fun hall => ?_⟩
  have hr' : List.Forall₂ (fun Y τ => ‖Y - y τ‖ ≤ C * h ^ p) ys (a :: ts) := by
    rw [List.forall₂_iff_get] at hr ⊢
    exact ⟨hr.1, fun i hi hi' => (hr.2 i hi hi').2 (hall _ (List.get_mem _ _))⟩
  obtain ⟨o', t', h1', h2', h3'⟩ := report_near L hL' nm hkey s w hw hr'
  rw [h1] at h1'
  obtain rfl := Except.ok.inj h1'
  rw [h2] at h2'
  obtain rfl := Block.Result.tensor.inj h2'
  exact h3'

omit [Fintype P] in
/-- C94: a forward pass of a block (without RNN mode) with a method of order `p` and a grid of steps of at most `h` returns the data of the exact solution of the shooting equations up to a constant times
`h ^ p` if the requested times belong to the grid, and otherwise up to a constant times `h ^ p + h ^ 2`; the constant depends on the equations, the solution and the method, not on the step size,
the requested times or the block. -/
theorem C94_forward {c : Cls K K' P R} (hL : c.lay.Ok) (hL' : c.dataLay.Ok) (hi : Indep c) {n B : Nat} {r0 : R}
    (hf : ContDiff ℝ 5 fun z : ℝ × Sys2 (Fin n) (Fin B) K K' => Evolution.field2 c.rhs c.dataRhs (modeOf c n r0) z.1 z.2) {T : Tableau} {p : ℕ} (hT : HasOrder T p) {a b : ℝ}
    {y : ℝ → Sys2 (Fin n) (Fin B) K K'} (hy : Solves (Evolution.field2 c.rhs c.dataRhs (modeOf c n r0)) a b y) :
    ∃ C h₀ : ℝ, 0 ≤ C ∧ 0 < h₀ ∧ ∀ h, 0 < h → h ≤ h₀ → ∀ (G : List ℝ → List ℝ)
      (icfg : Θ → Nat → Integrand.Cfg ℝ (Trip ℝ) (Par P R) (TDicts ℝ) ℝ R H D) (s0 : Integrand.St ℝ (Par P R) ℝ H D × (Nat → R × R)) (cfg : Block.Cfg ℝ ℝ Θ Rb),
      IsBlock c (solver T G) icfg s0 cfg → s0.1.useRnn = false → s0.1.external = false →
      ∀ (s : Block.St ℝ ℝ Θ), DimOk c.dataLay s.dataDim → ∀ (w : Block.When ℝ) (ts : List ℝ), Block.Is s w → w.times = a :: ts →
      (a :: ts).Pairwise (· < ·) → (∀ τ ∈ a :: ts, τ ≤ b) → Suits h G a ts →
      s.state = some (enc c.lay "" n (y a).1) → s.costate = some (enc c.lay "p_" n (y a).2.1) →
      ∀ X : Tensor ℝ, cfg.initialData X = .ok (enc c.dataLay "" B (y a).2.2) → ∀ r,
      ∃ o t, (Block.forward cfg r ⟨some X, none, none, none⟩ s).2 = .ok o ∧ o.result = .tensor t ∧ Accurate (L := c.dataLay) cfg.outKey C h p y (a :: ts) (G (a :: ts)) t w := by
  obtain ⟨C, h₀, hC, hp, key⟩ := C94_converge hf hT hy
  refine ⟨C, h₀, hC, hp, fun h hh hle G icfg s0 cfg hb hu he s hdd w ts hw hwt hinc hts hg hq hpp X hX r => ?_⟩
  obtain ⟨sh, hkey⟩ := hb.key
  obtain ⟨ys, e1, e2⟩ := key h hh hle G ts hinc hts hg
  rw [C67_forward hL hL' hi hb hu he hdd hw hq hpp hX hkey r r0, hwt, e1]
  exact report_accurate _ hL' _ hkey s w hwt e2

/-! ## Classes -/

/-- Six times continuously differentiable in the state. -/
def Smooth (f : Class K P) : Prop := ∀ (κ : Type) [Fintype κ], SmoothRhs 6 (f κ)

/-- C94: the nonlinearities the package offers, except `relu`, have as many derivatives as one wants. -/
theorem C94_nonlinearities (s : Option (List Char)) (n : Name) (hs : choose s = .ok n) (hn : n ≠ .relu) (m : ℕ) : ∃ f g, getNonlinearity s = .ok (f, g) ∧ ContDiff ℝ m f := by
  refine ⟨(pair n).1, (pair n).2, by unfold getNonlinearity; rw [hs]; rfl, ?_⟩
  cases n with
  | identity => exact contDiff_id
  | relu => exact absurd rfl hn
  | tanh => exact contDiff_tanh
  | sigmoid => exact contDiff_sigmoid
  | softmax => exact contDiff_softmax 1

section
variable {C D E : Type} [Fintype C] [Fintype D] [Fintype E] {nl : ℝ → ℝ} {h w : ℕ}

/-- C94: with such a nonlinearity the classes of C69 are smooth enough, those for images included. -/
theorem C94_classes (hs : ContDiff ℝ 6 nl) {ε : ℝ} (hε : 0 < ε) :
    Smooth (fun _ => simple nl : Class (C × D) _) ∧ Smooth (fun _ => upDown nl : Class (Two C D E) _) ∧ Smooth (fun _ => Models.secondOrder nl : Class (Two C D D) _) ∧
    Smooth (fun _ => universal nl : Class (Two C D E) _) ∧ Smooth (fun _ => periodic nl : Class (Two C D E) _) ∧ Smooth (fun _ => general nl 0 : Class (Two C D E) _) ∧
    Smooth (fun _ => debugSimple nl : Class (Two C D D) _) ∧ Smooth (fun _ => symmetrized nl : Class (Three C D E) _) ∧
    Smooth (fun _ => upDownConv nl : Class (Imgs C E h w) _) ∧ Smooth (fun _ => simpleConv nl : Class (Imgs C C h w) _) ∧ Smooth (fun _ => convBatch nl ε : Class (Imgs C C h w) _) :=
  have h6 : ContDiff ℝ (6 : ℕ) nl := hs
  ⟨fun _ _ => smooth_simple h6, fun _ _ => smooth_upDown h6, fun _ _ => smooth_upDown h6, fun _ _ => smooth_universal h6, fun _ _ => smooth_periodic h6, fun _ _ => smooth_general h6 0,
    fun _ _ => smooth_debugSimple h6, fun _ _ => smooth_symmetrized h6, fun _ _ => smooth_upDownConv h6, fun _ _ => smooth_upDownConv h6, fun _ _ => smooth_convBatch hε h6⟩
end

omit [Fintype P] in
theorem smooth_five {f : Class K P} (hf : Smooth f) (κ : Type) [Fintype κ] : SmoothRhs (5 + 1) (f κ) := hf κ

/-- C94 for automatic differentiation: for a regular smooth class, positive weights and at least one particle there is exactly one exact solution from the given particles, costates and data, and forward
passes with a method of order `p` are accurate to order `p`.  Samples can have other coordinates than particles. -/
theorem C94_forward_sizes {L : Lay K} (hL : L.Ok) {L' : Lay K'} (hL' : L'.Ok) {f : Class K P} (hf : Regular f) (hsf : Smooth f) {g : Class K' P} (hg : Regular g) (hsg : Smooth g) (wt : P → Option ℝ)
    (hw : ∀ r, 0 < weight wt r) {n B : Nat} (hn : 0 < n) (q p : Fin n × K → ℝ) (x : Fin B × K' → ℝ) {T : Tableau} {m : ℕ} (hT : HasOrder T m) {a b : ℝ} (hab : a ≤ b) :
    ∃ y : ℝ → Sys2 (Fin n) (Fin B) K K', Solves (Evolution.field2 f g (Evolution.autodiff f wt fun _ => (0, 0))) a b y ∧ y a = (q, p, x) ∧
    ∃ C h₀ : ℝ, 0 ≤ C ∧ 0 < h₀ ∧ ∀ h, 0 < h → h ≤ h₀ → ∀ (G : List ℝ → List ℝ)
      (icfg : Θ → Nat → Integrand.Cfg ℝ (Trip ℝ) (Par P (P → ℝ)) (TDicts ℝ) ℝ (P → ℝ) H D) (s0 : Integrand.St ℝ (Par P (P → ℝ)) ℝ H D × (Nat → (P → ℝ) × (P → ℝ)))
      (cfg : Block.Cfg ℝ ℝ Θ Rb),
      IsBlock ((autodiffCls L f wt).withData L' g) (solver T G) icfg s0 cfg → s0.1.useRnn = false → s0.1.external = false →
      ∀ (s : Block.St ℝ ℝ Θ), DimOk L' s.dataDim → ∀ (w : Block.When ℝ) (ts : List ℝ), Block.Is s w → w.times = a :: ts →
      (a :: ts).Pairwise (· < ·) → (∀ τ ∈ a :: ts, τ ≤ b) → Suits h G a ts →
      s.state = some (enc L "" n q) → s.costate = some (enc L "p_" n p) →
      ∀ X : Tensor ℝ, cfg.initialData X = .ok (enc L' "" B x) → ∀ r,
      ∃ o t, (Block.forward cfg r ⟨some X, none, none, none⟩ s).2 = .ok o ∧ o.result = .tensor t ∧ Accurate (L := L') cfg.outKey C h m y (a :: ts) (G (a :: ts)) t w := by
  have : Nonempty (Fin n) := ⟨⟨0, hn⟩⟩
  obtain ⟨y, hy, hya, _⟩ := C69_global_sizes (β := Fin B) hf hg wt hw (fun _ => (0, 0)) hab (q, p, x)
  refine ⟨y, hy, hya, ?_⟩
  have hC := contDiff_autodiff (ι := Fin n) (β := Fin B) (n := 5) (hf.linear _).affine (smooth_five hsf _) (hg.linear _).affine (smooth_five hsg _).less wt (fun r => (hw r).ne') fun _ => (0, 0)
  obtain ⟨C, h₀, h1, h2, key⟩ := C94_forward (c := (autodiffCls L f wt).withData L' g) hL hL' (indep_autodiff L (fun n => (hf.linear (Fin n)).affine) wt) (r0 := 0) hC hT hy
  refine ⟨C, h₀, h1, h2, fun h hh hle G icfg s0 cfg hb hu he s hdd w ts hwi hwt hinc hts hg hq hp X hX r => ?_⟩
  exact key h hh hle G icfg s0 cfg hb hu he s hdd w ts hwi hwt hinc hts hg (by rw [hya]; exact hq) (by rw [hya]; exact hp) X (by rw [hya]; exact hX) r

/-- C94 for hand-written formulas where they are exact (`C68_exact`): the same, with the same solution. -/
theorem C94_forward_analytic {L : Lay K} (hL : L.Ok) {f : Class K P} (hf : Regular f) (hsf : Smooth f) (wt : P → Option ℝ) (hw : ∀ r, 0 < weight wt r) {n B : Nat} (hn : 0 < n)
    (par : ∀ n, (Fin n × K → ℝ) → (Fin n × K → ℝ) → P → ℝ) (cost : ∀ n, (P → ℝ) → (Fin n × K → ℝ) → (Fin n × K → ℝ) → Fin n × K → ℝ) (hx : Exact f wt n (par n) (cost n))
    (q p : Fin n × K → ℝ) (x : Fin B × K → ℝ) {T : Tableau} {m : ℕ} (hT : HasOrder T m) {a b : ℝ} (hab : a ≤ b) :
    ∃ y : ℝ → Sys (Fin n) (Fin B) K, Solves (Evolution.field f (Evolution.autodiff f wt fun _ => (0, 0))) a b y ∧ y a = (q, p, x) ∧
    ∃ C h₀ : ℝ, 0 ≤ C ∧ 0 < h₀ ∧ ∀ h, 0 < h → h ≤ h₀ → ∀ (G : List ℝ → List ℝ)
      (icfg : Θ → Nat → Integrand.Cfg ℝ (Trip ℝ) (Par P R) (TDicts ℝ) ℝ R H D) (s0 : Integrand.St ℝ (Par P R) ℝ H D × (Nat → R × R))
      (cfg : Block.Cfg ℝ ℝ Θ Rb),
      IsBlock (analyticCls L f par cost wt) (solver T G) icfg s0 cfg → s0.1.useRnn = false → s0.1.external = false →
      ∀ (s : Block.St ℝ ℝ Θ), DimOk L s.dataDim → ∀ (w : Block.When ℝ) (ts : List ℝ), Block.Is s w → w.times = a :: ts →
      (a :: ts).Pairwise (· < ·) → (∀ τ ∈ a :: ts, τ ≤ b) → Suits h G a ts →
      s.state = some (enc L "" n q) → s.costate = some (enc L "p_" n p) →
      ∀ X : Tensor ℝ, cfg.initialData X = .ok (enc L "" B x) → ∀ r,
      ∃ o t, (Block.forward cfg r ⟨some X, none, none, none⟩ s).2 = .ok o ∧ o.result = .tensor t ∧ Accurate (L := L) cfg.outKey C h m y (a :: ts) (G (a :: ts)) t w := by
  have : Nonempty (Fin n) := ⟨⟨0, hn⟩⟩
  obtain ⟨y, hy, hya, _⟩ := C69_global (β := Fin B) hf wt hw (fun _ => (0, 0)) hab (q, p, x)
  refine ⟨y, hy, hya, ?_⟩
  have hC := contDiff_autodiff (ι := Fin n) (β := Fin B) (n := 5) (hf.linear _).affine (smooth_five hsf _) (hf.linear _).affine (smooth_five hsf _).less wt (fun r => (hw r).ne') fun _ => (0, 0)
  obtain ⟨C, h₀, h1, h2, key⟩ := C94_converge hC hT hy
  have em : Evolution.analytic (par n) (cost n) wt = Evolution.autodiff f wt fun _ => (0, 0) := by
    unfold Evolution.analytic Evolution.autodiff
    congr 1
    · funext _ q p
      exact (hx q p).1.symm
    · funext _ q p
      exact (hx q p).2.symm
  refine ⟨C, h₀, h1, h2, fun h hh hle G icfg s0 cfg hb hu he s hdd w ts hwi hwt hinc hts hg hq hp X hX r => ?_⟩
  obtain ⟨sh, hkey⟩ := hb.key
  obtain ⟨ys, e1, e2⟩ := key h hh hle G ts hinc hts hg
  rw [C67_forward_analytic hL f par cost wt hb hu he hdd hwi hq hp hX hkey r, hwt, em]
  rw [hya] at e1
  have e1 : runSys (Evolution.field f (Evolution.autodiff f wt fun _ => (0, 0))) (solver T G (a :: ts)) [(q, p, x)] = .ok ys := e1
  rw [e1]
  exact report_accurate _ hL _ hkey s w hwt e2

/-- C94 in RNN mode: the parameters are computed once, at the initial particles and costates; the forward passes are accurate to order `m` for the solution with these parameters.  Samples can have other
coordinates than particles. -/
theorem C94_forward_rnn {L : Lay K} (hL : L.Ok) {L' : Lay K'} (hL' : L'.Ok) {f : Class K P} (hf : Regular f) (hsf : Smooth f) {g : Class K' P} (hg : Regular g) (hsg : Smooth g) (wt : P → Option ℝ)
    {n B : Nat} (hn : 0 < n) (q p : Fin n × K → ℝ) (x : Fin B × K' → ℝ) {T : Tableau} {m : ℕ} (hT : HasOrder T m) {a b : ℝ} (hab : a ≤ b) :
    ∃ y : ℝ → Sys2 (Fin n) (Fin B) K K', Solves (Evolution.field2 f g (Evolution.given f wt fun _ => directParameters (f (Fin n)) wt 0 q p)) a b y ∧ y a = (q, p, x) ∧
    ∃ C h₀ : ℝ, 0 ≤ C ∧ 0 < h₀ ∧ ∀ h, 0 < h → h ≤ h₀ → ∀ (G : List ℝ → List ℝ)
      (icfg : Θ → Nat → Integrand.Cfg ℝ (Trip ℝ) (Par P (P → ℝ)) (TDicts ℝ) ℝ (P → ℝ) H D) (s0 : Integrand.St ℝ (Par P (P → ℝ)) ℝ H D × (Nat → (P → ℝ) × (P → ℝ)))
      (cfg : Block.Cfg ℝ ℝ Θ Rb),
      IsBlock ((rnnCls L f wt).withData L' g) (solver T G) icfg s0 cfg → s0.1.useRnn = true → s0.1.external = false → s0.1.cache = none →
      ∀ (s : Block.St ℝ ℝ Θ), DimOk L' s.dataDim → ∀ (w : Block.When ℝ) (ts : List ℝ), Block.Is s w → w.times = a :: ts →
      (a :: ts).Pairwise (· < ·) → (∀ τ ∈ a :: ts, τ ≤ b) → Suits h G a ts →
      s.state = some (enc L "" n q) → s.costate = some (enc L "p_" n p) →
      ∀ X : Tensor ℝ, cfg.initialData X = .ok (enc L' "" B x) → ∀ r,
      ∃ o t, (Block.forward cfg r ⟨some X, none, none, none⟩ s).2 = .ok o ∧ o.result = .tensor t ∧ Accurate (L := L') cfg.outKey C h m y (a :: ts) (G (a :: ts)) t w := by
  have : Nonempty (Fin n) := ⟨⟨0, hn⟩⟩
  obtain ⟨y, hy, hya, _⟩ := C69_global_rnn_sizes (β := Fin B) hf hg wt (directParameters (f (Fin n)) wt 0 q p) hab (q, p, x)
  refine ⟨y, hy, hya, ?_⟩
  have hC := contDiff_given (ι := Fin n) (β := Fin B) (n := 5) (hf.linear _).affine (smooth_five hsf _) (hg.linear _).affine (smooth_five hsg _).less wt
    (contDiff_const (c := directParameters (f (Fin n)) wt 0 q p) : ContDiff ℝ (5 : ℕ) fun _ : ℝ => directParameters (f (Fin n)) wt 0 q p)
  obtain ⟨C, h₀, h1, h2, key⟩ := C94_converge hC hT hy
  refine ⟨C, h₀, h1, h2, fun h hh hle G icfg s0 cfg hb hu he hn s hdd w ts hw hwt hinc hts hgr hq hp X hX r => ?_⟩
  obtain ⟨sh, hkey⟩ := hb.key
  obtain ⟨ys, e1, e2⟩ := key h hh hle G ts hinc hts hgr
  rw [C67_forward_rnn (c := (rnnCls L f wt).withData L' g) hL hL' hb hu he hn hdd hw hq hp hX hkey r (directParameters (f (Fin n)) wt 0 q p, (s0.2 0).1) ?_, hwt]
  · rw [hya] at e1
    show ∃ o t, (report L L' cfg.name cfg.outKey sh s w (runSys (Evolution.field2 f g (Evolution.given f wt fun _ => directParameters (f (Fin n)) wt 0 q p))
      (solver T G (a :: ts)) [(q, p, x)])).2 = .ok o ∧ _
    rw [e1]
    exact report_accurate _ hL' _ hkey s w hwt e2
  · intro z hz
    rw [firstEval_solver hT.consistent G _ _ z hz]
    exact Prod.ext (C32_independent_of_initialisation (hf.linear _).affine wt 0 (s0.2 0).1 q p) rfl

end Verif.Order
